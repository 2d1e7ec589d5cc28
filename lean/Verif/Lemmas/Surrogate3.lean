/-
The parser on a text and on the text with its surrogates paired.
-/
import Verif.Lemmas.Surrogate2
import Verif.Lemmas.Prepare

set_option linter.unusedSimpArgs false
set_option linter.unusedVariables false

namespace Urlstd

open Spec

/-! ### Preparing the input -/

theorem getLast?_iff {c : Nat} {s : Str} : s.getLast? = some c ↔ ∃ a, splitAtLast c s = some (a, []) := by
  constructor
  · intro h
    rcases List.eq_nil_or_concat s with rfl | ⟨a, d, rfl⟩
    · cases h
    · rw [List.concat_eq_append] at *
      have : d = c := by simpa using h
      subst this
      exact ⟨a, splitAtLast_append (by simp)⟩
  · rintro ⟨a, h⟩
    rw [(splitAtLast_some h).1]
    simp

theorem getLast?_toScalar {c : Nat} (hc' : c < 128) {s : Str} (hs : IsStr s) :
    (toScalar s).getLast? = some c ↔ s.getLast? = some c := by
  rw [getLast?_iff, getLast?_iff, toScalar_splitAtLast hc' hs]
  constructor
  · rintro ⟨a, h⟩
    rw [Option.map_eq_some_iff] at h
    obtain ⟨⟨x, y⟩, h1, h2⟩ := h
    simp only [Prod.mk.injEq] at h2
    have hy : IsStr y := fun d hd => hs d (by rw [(splitAtLast_some h1).1]; simp [hd])
    exact ⟨x, by rw [h1, (toScalar_eq_nil hy).1 h2.2]⟩
  · rintro ⟨a, h⟩
    exact ⟨toScalar a, by rw [h]; rfl⟩

theorem stripRight_cut (p : Nat → Bool) (s : Str) : ∃ a b, s = a ++ b ∧ stripRight p s = a ∧ (∀ c ∈ b, p c = true) ∧
    ∀ c, a.getLast? = some c → p c = false := by
  obtain ⟨x, y, e, h1, h2, h3, h4⟩ := span_split p s.reverse
  refine ⟨y.reverse, x.reverse, ?_, ?_, ?_, ?_⟩
  · rw [← List.reverse_append, ← e, List.reverse_reverse]
  · unfold stripRight; rw [h2]
  · intro c hc; exact h3 c (by simpa using hc)
  · intro c hc; rw [List.getLast?_reverse] at hc; exact h4 c hc

theorem stripRight_of {p : Nat → Bool} {a b : Str} (hb : ∀ c ∈ b, p c = true) (ha : ∀ c, a.getLast? = some c → p c = false) :
    stripRight p (a ++ b) = a := by
  rw [stripRight_append_all hb]
  unfold stripRight
  rw [dropWhile_none, List.reverse_reverse]
  intro c hc
  rw [List.head?_reverse] at hc
  exact ha c hc

theorem isC0OrSpace_ascii {c : Nat} (h : isC0OrSpace c = true) : c < 128 := by
  simp [isC0OrSpace] at h; omega

theorem isC0OrSpace_wide (c : Nat) (hc : 128 ≤ c) : isC0OrSpace c = false := by
  cases h : isC0OrSpace c with
  | false => rfl
  | true => have := isC0OrSpace_ascii h; omega

theorem stripRight_toScalar {s : Str} (hs : IsStr s) :
    stripRight isC0OrSpace (toScalar s) = toScalar (stripRight isC0OrSpace s) := by
  obtain ⟨a, b, e, h1, h2, h3⟩ := stripRight_cut isC0OrSpace s
  rw [h1]
  subst e
  have ha : IsStr a := (isStr_suffix hs).1
  have he : toScalar (a ++ b) = toScalar a ++ b := by
    cases b with
    | nil => rw [List.append_nil, List.append_nil]
    | cons c cs =>
      rw [toScalar_append (isC0OrSpace_ascii (h2 c (by simp))),
        toScalar_id (a := cs) fun d hd => isC0OrSpace_ascii (h2 d (by simp [hd]))]
  rw [he]
  refine stripRight_of h2 ?_
  intro c hc
  cases h : isC0OrSpace c with
  | false => rfl
  | true =>
    rw [getLast?_toScalar (isC0OrSpace_ascii h) ha] at hc
    rw [← h, h3 c hc]

theorem stripBoth_toScalar {s : Str} (hs : IsStr s) :
    stripBoth isC0OrSpace (toScalar s) = toScalar (stripBoth isC0OrSpace s) := by
  rw [stripBoth_eq, stripBoth_eq, (toScalar_ascii_span isC0OrSpace_wide hs).2, stripRight_toScalar (isStr_dropWhile hs)]

theorem removeTabNewline_toScalar {s : Str} (hs : IsStr s) (h : ∀ c ∈ s, isTabNewline c = false) :
    removeTabNewline (toScalar s) = toScalar s := by
  refine removeTabNewline_id ?_
  intro c hc
  by_cases h' : c < 128
  · exact h c ((mem_toScalar h' hs).1 hc)
  · unfold isTabNewline; simp; omega

theorem prepared_toScalar {s : Str} (hs : IsStr s) :
    prepared (toScalar (removeTabNewline s)) none = toScalar (prepared s none) := by
  have hs1 : IsStr (removeTabNewline s) := fun c hc => hs c (by unfold removeTabNewline at hc; exact (List.mem_filter.1 hc).1)
  have ht : ∀ c ∈ removeTabNewline s, isTabNewline c = false := by
    intro c hc
    unfold removeTabNewline at hc
    simpa using (List.mem_filter.1 hc).2
  rw [← prepared_tabs s]
  show removeTabNewline (stripBoth isC0OrSpace (toScalar (removeTabNewline s))) =
    toScalar (removeTabNewline (stripBoth isC0OrSpace (removeTabNewline s)))
  rw [stripBoth_toScalar hs1]
  have h1 : IsStr (stripBoth isC0OrSpace (removeTabNewline s)) := fun c hc => hs1 c (stripBoth_subset _ _ c hc)
  have h2 : ∀ c ∈ stripBoth isC0OrSpace (removeTabNewline s), isTabNewline c = false := fun c hc => ht c (stripBoth_subset _ _ c hc)
  rw [removeTabNewline_toScalar h1 h2, removeTabNewline_id h2]

/-! ### States after the scheme -/

/-- a step does not lead back to the scheme, and to the opaque path at the end of the input only -/
def SOut.past : SOut → Prop
  | .to st r _ => st ≠ .schemeStart ∧ (st = .opaquePath → r = [])
  | .fail _ _ => True

theorem past_ite {c : Prop} [Decidable c] {a b : SOut} (ha : a.past) (hb : b.past) : (if c then a else b).past := by
  split <;> assumption

theorem past_to {st : PState} (h1 : st ≠ .schemeStart) (h2 : st ≠ .opaquePath) (r : Str) (u : Rec) : (SOut.to st r u).past :=
  ⟨h1, fun h => absurd h h2⟩

/-- close a goal about a concrete state -/
macro "pst" : tactic =>
  `(tactic| first | trivial | exact past_to (by decide) (by decide) _ _ |
    exact past_to (by split <;> decide) (by split <;> decide) _ _)

theorem afterPath_past (st : PState) (h : st ≠ .schemeStart) (r : Str) (u : Rec) : (afterPath st r u).past := by
  unfold afterPath
  cases r with
  | nil => exact ⟨h, fun _ => rfl⟩
  | cons c cs => exact past_ite (by pst) (by pst)

theorem sHostEnd_past (env : Env) (ov : Bool) (b r : Str) (u : Rec) : (sHostEnd env ov b r u).past := by
  unfold sHostEnd
  refine past_ite trivial (past_ite (by pst) ?_)
  cases (hostParse env b (!u.isSpecial)).res with
  | error e => trivial
  | ok h => pst

theorem sHost_past (env : Env) (ov : Option PState) (r : Str) (u : Rec) : (sHost env ov r u).past := by
  unfold sHost
  refine past_ite (by pst) ?_
  unfold sHostGo
  dsimp only
  split
  · exact sHostEnd_past ..
  · refine past_ite (past_ite trivial (past_ite (by pst) ?_)) (sHostEnd_past ..)
    cases (hostParse env _ (!u.isSpecial)).res with
    | error e => trivial
    | ok h => pst

theorem sstep_past (env : Env) (e : Encoding) (base : Option Rec) (ov : Option PState) {st : PState}
    (hst : st ≠ .schemeStart) (rest : Str) (url : Rec) : (sstep env e base ov st rest url).past := by
  cases st
  case schemeStart => exact absurd rfl hst
  case eof => trivial
  case scheme => trivial
  case authority =>
    show (sAuthority rest url).past
    unfold sAuthority
    dsimp only
    split
    · pst
    · exact past_ite trivial (by pst)
  case fileHost =>
    show (sFileHost env ov rest url).past
    unfold sFileHost sFileHostEnd
    refine past_ite (by pst) (past_ite (by pst) ?_)
    cases (hostParse env _ (!url.isSpecial)).res with
    | error e => trivial
    | ok h => pst
  case fileSlash =>
    show (sFileSlash base rest url).past
    have h : ∀ r u, (sFileSlashPath base r u).past := by
      intro r u
      unfold sFileSlashPath
      cases base with
      | none => pst
      | some b =>
        refine past_ite ?_ (by pst)
        dsimp only
        split
        · refine past_ite ?_ (by pst)
          split
          · pst
          · trivial
        · pst
    unfold sFileSlash
    cases rest with
    | nil => exact h _ _
    | cons c cs => exact past_ite (by pst) (h _ _)
  case file =>
    show (sFile base rest url).past
    have h : ∀ r u, (sFilePath base r u).past := by
      intro r u
      unfold sFilePath
      cases base with
      | none => pst
      | some b =>
        refine past_ite ?_ (by pst)
        cases r with
        | nil => pst
        | cons c cs =>
          refine past_ite (by pst) (past_ite (by pst) ?_)
          refine past_ite ?_ (by pst)
          cases shortenRec _ with
          | none => trivial
          | some u => pst
    unfold sFile
    cases rest with
    | nil => exact h _ _
    | cons c cs => exact past_ite (by pst) (h _ _)
  case fragment =>
    show (sFragment rest url).past
    unfold sFragment
    refine past_ite (by pst) ?_
    split
    · trivial
    · pst
  case hostname => exact sHost_past ..
  case host => exact sHost_past ..
  case noScheme =>
    show (sNoScheme base rest url).past
    unfold sNoScheme
    split
    · trivial
    · exact past_ite trivial (past_ite (by pst) (past_ite (by pst) (by pst)))
  case opaquePath => exact afterPath_past _ (by decide) _ _
  case pathOrAuthority => exact past_ite (by pst) (by pst)
  case pathStart =>
    show (sPathStart ov rest url).past
    unfold sPathStart
    cases rest with
    | nil =>
      refine past_ite (by pst) (past_ite ?_ (by pst))
      cases url.path with
      | list p => pst
      | «opaque» t => trivial
    | cons c cs =>
      exact past_ite (by pst) (past_ite (by pst) (past_ite (by pst) (past_ite (by pst) (by pst))))
  case path =>
    show (sPath ov rest url).past
    unfold sPath
    split
    · trivial
    · exact afterPath_past _ (by decide) _ _
  case port =>
    show (sPort env ov rest url).past
    have h : ∀ b r, (sPortEnd env ov.isSome b r url).past := by
      intro b r
      unfold sPortEnd
      dsimp only
      refine past_ite (by pst) ?_
      cases pyInt env 10 b with
      | none => trivial
      | some v => exact past_ite trivial (by pst)
    unfold sPort sPortGo
    split
    · exact h _ _
    · exact past_ite (h _ _) trivial
  case query =>
    show (sQuery e ov rest url).past
    unfold sQuery
    refine past_ite (by pst) ?_
    split
    · trivial
    · pst
  case relativeSlash =>
    show (sRelativeSlash base rest url).past
    unfold sRelativeSlash
    refine past_ite (by pst) (past_ite (by pst) ?_)
    split
    · trivial
    · pst
  case relative =>
    show (sRelative base rest url).past
    unfold sRelative
    split
    · trivial
    · refine past_ite trivial ?_
      split
      · pst
      · refine past_ite (by pst) (past_ite (by pst) (past_ite (by pst) ?_))
        split
        · pst
        · trivial
  case specialAuthorityIgnoreSlashes =>
    show (sSpecialAuthorityIgnoreSlashes rest url).past
    unfold sSpecialAuthorityIgnoreSlashes
    pst
  case specialAuthoritySlashes => exact past_ite (by pst) (by pst)
  case specialRelativeOrAuthority => exact past_ite (by pst) (by pst)

section
variable (env : Env) (e : Encoding) (base : Option Rec) (ov : Option PState)

theorem eval_scal_past (n : Nat) : ∀ (st : PState) (r : Str) (url : Rec), st.rank ≤ n → IsStr r → st ≠ .schemeStart →
    (st = .opaquePath → r = []) → eval env e base ov st (toScalar r) url = eval env e base ov st r url := by
  induction n with
  | zero =>
    intro st r url h _ _ _
    have := rank_zero (Nat.le_zero.1 h)
    subst this
    rw [eval_eof, eval_eof]
  | succ n ih =>
    intro st r url h hs h1 h2
    by_cases heof : st = .eof
    · subst heof; rw [eval_eof, eval_eof]
    · rw [eval_step _ _ _ _ heof, eval_step _ _ _ _ heof, sstep_scal env e base ov hs (fun h => by
        rw [h2 h]; intro x y a b e; simp at e)]
      have hp := sstep_past env e base ov h1 r url
      have hf := sstep_suf env e base ov st r url
      have hb := sstep_below env e base ov st r url
      cases ho : sstep env e base ov st r url with
      | fail e u => rfl
      | to st' r' u' =>
        rw [ho] at hp hf hb
        exact ih st' r' u' (by have : st'.rank < st.rank := hb; omega) (isStr_of_suffix hf hs) hp.1 hp.2

theorem eval_scal (st : PState) {r : Str} (url : Rec) (hs : IsStr r) (h1 : st ≠ .schemeStart)
    (h2 : st = .opaquePath → r = []) : eval env e base ov st (toScalar r) url = eval env e base ov st r url :=
  eval_scal_past env e base ov 20 st r url (rank_le _) hs h1 h2

/-- the opaque path state encodes character by character -/
theorem eval_scal_opaque {r : Str} (url : Rec) (hs : IsStr r) (hn : NoPair (r.takeWhile notQF)) :
    eval env e base ov .opaquePath (toScalar r) url = eval env e base ov .opaquePath r url := by
  rw [eval_step _ _ _ _ (by decide), eval_step _ _ _ _ (by decide)]
  show (sOpaquePath (toScalar r) url).andThen env e base ov = (sOpaquePath r url).andThen env e base ov
  rw [scal_opaquePath hs hn]
  have hf := sstep_suf env e base ov .opaquePath r url
  have hp := sstep_past env e base ov (st := .opaquePath) (by decide) r url
  have hb := sstep_below env e base ov .opaquePath r url
  change (sOpaquePath r url).Suf r at hf
  change (sOpaquePath r url).past at hp
  cases ho : sOpaquePath r url with
  | fail e u => rfl
  | to st' r' u' =>
    rw [ho] at hp hf
    exact eval_scal env e base ov st' u' (isStr_of_suffix hf hs) hp.1 hp.2

/-- the result of the opaque path state has an opaque path -/
theorem eval_opaque_path {r : Str} {url : Rec} {t : Str} (hu : url.path = .opaque t) :
    ∃ t', (eval env e base none .opaquePath r url).2.path = .opaque t' := by
  have hfrag : ∀ r (u : Rec), (eval env e base none .fragment r u).2.path = u.path := by
    intro r u
    rw [eval_step _ _ _ _ (by decide)]
    show ((sFragment r u).andThen env e base none).2.path = _
    unfold sFragment
    split
    · show (eval env e base none .eof [] u).2.path = _
      rw [eval_eof]
    · split
      · rfl
      · show (eval env e base none .eof [] _).2.path = _
        rw [eval_eof]
  have hq : ∀ r (u : Rec), (eval env e base none .query r u).2.path = u.path := by
    intro r u
    rw [eval_step _ _ _ _ (by decide)]
    show ((sQuery e none r u).andThen env e base none).2.path = _
    unfold sQuery
    dsimp only
    split
    · exact hfrag _ _
    · split
      · rfl
      · show (eval env e base none .fragment _ _).2.path = _
        rw [hfrag]
        split <;> rfl
  rw [eval_step _ _ _ _ (by decide)]
  show ∃ t', ((sOpaquePath r url).andThen env e base none).2.path = .opaque t'
  unfold sOpaquePath
  rw [hu]
  unfold afterPath
  split
  · show ∃ t', (eval env e base none .eof [] _).2.path = .opaque t'
    rw [eval_eof]; exact ⟨_, rfl⟩
  · split
    · show ∃ t', (eval env e base none .query _ _).2.path = .opaque t'
      rw [hq]; exact ⟨_, rfl⟩
    · show ∃ t', (eval env e base none .fragment _ _).2.path = .opaque t'
      rw [hfrag]; exact ⟨_, rfl⟩

/-- the states behind an opaque path do not fail -/
theorem eval_opaque_ok {r : Str} {url : Rec} {t : Str} (hu : url.path = .opaque t) (err : Err) :
    (eval env e base none .opaquePath r url).1 ≠ .error err := by
  have hfrag : ∀ r (u : Rec), (u.fragment ≠ none ∨ r = []) → (eval env e base none .fragment r u).1 ≠ .error err := by
    intro r u hf
    rw [eval_step _ _ _ _ (by decide)]
    show ((sFragment r u).andThen env e base none).1 ≠ _
    unfold sFragment
    split
    · show (eval env e base none .eof [] u).1 ≠ _
      rw [eval_eof]; simp
    · next hr =>
      split
      · next hn =>
        rcases hf with hf | hf
        · exact absurd hn hf
        · subst hf; exact absurd rfl hr
      · show (eval env e base none .eof [] _).1 ≠ _
        rw [eval_eof]; simp
  have hq : ∀ r (u : Rec), u.query ≠ none → (eval env e base none .query r u).1 ≠ .error err := by
    intro r u hu
    rw [eval_step _ _ _ _ (by decide)]
    show ((sQuery e none r u).andThen env e base none).1 ≠ _
    unfold sQuery
    dsimp only
    split
    · exact hfrag _ _ (.inr rfl)
    · split
      · next hn => exact absurd hn hu
      · show (eval env e base none .fragment _ _).1 ≠ _
        refine hfrag _ _ ?_
        split
        · next he =>
          right
          rw [List.isEmpty_iff.1 he]; rfl
        · left; simp
  rw [eval_step _ _ _ _ (by decide)]
  show ((sOpaquePath r url).andThen env e base none).1 ≠ _
  unfold sOpaquePath afterPath
  split
  · show (eval env e base none .eof [] _).1 ≠ _
    rw [eval_eof]; simp
  · split
    · exact hq _ _ (by simp)
    · exact hfrag _ _ (.inl (by simp))

/-- a step from the scheme state -/
theorem eval_scal_scheme {r : Str} (url : Rec) (hs : IsStr r)
    (h : ∀ b t, takeScheme r = some (b, t) → (∀ u, eval env e base none .schemeStart r url = (.ok (), u) → ∃ segs, u.path = .list segs) ∨
      NoPair (t.takeWhile notQF)) :
    Fin.toExcept (eval env e base none .schemeStart (toScalar r) url) =
      Fin.toExcept (eval env e base none .schemeStart r url) := by
  have hE := eval_step env e base none (st := .schemeStart) (by decide) r url
  rw [eval_step _ _ _ _ (by decide), sstep_scal env e base none hs (by simp)]
  cases ho : sstep env e base none .schemeStart r url with
  | fail e u => rw [hE, ho]; rfl
  | to st' r' u' =>
    rw [ho] at hE
    rw [hE]
    have hsuf := sstep_suf env e base none .schemeStart r url
    have hb := sstep_below env e base none .schemeStart r url
    rw [ho] at hsuf hb
    have hs' : IsStr r' := isStr_of_suffix hsuf hs
    show Fin.toExcept (eval env e base none st' (toScalar r') u') = Fin.toExcept (eval env e base none st' r' u')
    have h1 : st' ≠ .schemeStart := by
      intro h; subst h; exact absurd (show PState.rank .schemeStart < PState.rank .schemeStart from hb) (by omega)
    by_cases hop : st' = .opaquePath
    · subst hop
      have hk : ∃ b, takeScheme r = some (b, r') ∧ u'.path = .opaque [] := by
        change sScheme base none r url = _ at ho
        unfold sScheme at ho
        rcases ht : takeScheme r with _ | ⟨b, t⟩
        · rw [ht] at ho; simp at ho
        · rw [ht] at ho
          dsimp only [Option.isSome] at ho
          rw [if_neg (by simp)] at ho
          split at ho
          · simp at ho
          · split at ho
            · (repeat' split at ho) <;> simp at ho
            · split at ho
              · simp at ho
              · simp only [SOut.to.injEq, true_and] at ho
                refine ⟨b, by rw [ho.1], ?_⟩
                rw [← ho.2]
      obtain ⟨b, hk, hp⟩ := hk
      rcases h b r' hk with h | h
      · obtain ⟨t', ht'⟩ := eval_opaque_path env e base (r := r') hp
        rw [hE] at h
        change ∀ u, eval env e base none .opaquePath r' u' = (.ok (), u) → _ at h
        have hok : (eval env e base none .opaquePath r' u').1 = .ok () ∨ ∃ err, (eval env e base none .opaquePath r' u').1 = .error err := by
          cases (eval env e base none .opaquePath r' u').1 with
          | ok u => exact .inl rfl
          | error e => exact .inr ⟨e, rfl⟩
        rcases hok with hok | ⟨err, herr⟩
        · obtain ⟨segs, hsegs⟩ := h _ (Prod.ext hok rfl)
          rw [ht'] at hsegs; cases hsegs
        · exact absurd herr (eval_opaque_ok env e base hp err)
      · rw [eval_scal_opaque env e base none u' hs' h]
    · rw [eval_scal env e base none st' u' hs' h1 (fun h => absurd h hop)]

end

/-! ### The whole parser -/

theorem stripBoth_infix (p : Nat → Bool) (s : Str) : ∃ a b, s = a ++ stripBoth p s ++ b ∧ ∀ c ∈ a, p c = true := by
  obtain ⟨x, y, e, h1, h2, h3, h4⟩ := span_split p s
  obtain ⟨a, b, e', h1', h2', h3'⟩ := stripRight_cut p y
  refine ⟨x, b, ?_, h3⟩
  rw [stripBoth_eq, h2, h1', List.append_assoc, ← e', ← e]

theorem takeScheme_front {r b t : Str} (h : takeScheme r = some (b, t)) :
    ∃ pre, r = pre ++ t ∧ ∀ c ∈ pre, c ≠ 63 ∧ c ≠ 35 := by
  unfold takeScheme at h
  cases r with
  | nil => cases h
  | cons c cs =>
    dsimp only at h
    split at h
    · cases h
    · next ha =>
      obtain ⟨x, y, e, h1, h2, h3, h4⟩ := span_split isSchemeChar cs
      rw [h1, h2] at h
      cases y with
      | nil => cases h
      | cons d ds =>
        dsimp only at h
        split at h
        · next hd =>
          simp only [Option.some.injEq, Prod.mk.injEq] at h
          refine ⟨c :: x ++ [d], by rw [e, ← h.2]; simp, ?_⟩
          intro z hz
          simp only [List.cons_append, List.mem_cons, List.mem_append, List.not_mem_nil, or_false] at hz
          have hal : ∀ c, isAlpha c = true → c ≠ 63 ∧ c ≠ 35 := by
            intro c hc; simp [isAlpha] at hc; omega
          rcases hz with rfl | hz | rfl
          · exact hal z (by simpa using ha)
          · have := h3 z hz
            refine ⟨?_, ?_⟩ <;> rintro rfl <;> revert this <;> decide
          · omega
        · cases h

theorem noPair_of_front {s pre t post : Str} (h : ¬ PairInFront s) (e : s = pre ++ t ++ post)
    (hp : ∀ c ∈ pre, c ≠ 63 ∧ c ≠ 35) : NoPair (t.takeWhile notQF) := by
  intro x y a b he hab
  refine h ⟨pre ++ x, a, b, y ++ t.dropWhile notQF ++ post, ?_, ?_, ?_, ?_⟩
  · have ht := List.takeWhile_append_dropWhile (p := notQF) (l := t)
    rw [he] at ht
    rw [e]
    conv => lhs; rw [← ht]
    simp
  · have := hab.1; simp [isHigh] at this; exact this
  · have := hab.2; simp [isLow] at this; exact this
  · intro c hc
    rcases List.mem_append.1 hc with hc | hc
    · exact hp c hc
    · have : notQF c = true := takeWhile_mem (p := notQF) (s := t) (by rw [he]; simp [hc])
      simpa [notQF] using this

theorem basicParse_toScalar (env : Env) {s : Str} (hs : IsStr s) (base : Option Rec) (e : Encoding)
    (h : (∀ u, (basicParse env s base e).toExcept = .ok u → ∃ segs, u.path = .list segs) ∨
      ¬ PairInFront (removeTabNewline s)) :
    (basicParse env (toScalar (removeTabNewline s)) base e).toExcept = (basicParse env s base e).toExcept := by
  rw [basicParse_toExcept, basicParse_toExcept, prepared_toScalar hs]
  have hs1 : IsStr (removeTabNewline s) := fun c hc => hs c (by unfold removeTabNewline at hc; exact (List.mem_filter.1 hc).1)
  have hpr : prepared s none = stripBoth isC0OrSpace (removeTabNewline s) := by
    show removeTabNewline (stripBoth isC0OrSpace s) = stripBoth isC0OrSpace (s.filter _)
    exact (stripBoth_filter (fun c hc => tab_c0 (by simpa using hc)) s).symm
  have hsp : IsStr (prepared s none) := by
    rw [hpr]; exact fun c hc => hs1 c (stripBoth_subset _ _ c hc)
  refine eval_scal_scheme env e base {} hsp ?_
  intro b t ht
  rcases h with h | h
  · left
    intro u hu
    refine h u ?_
    rw [basicParse_toExcept, hu]; rfl
  · right
    obtain ⟨x, y, e1, hx⟩ := stripBoth_infix isC0OrSpace (removeTabNewline s)
    obtain ⟨pre, e2, hpre⟩ := takeScheme_front ht
    rw [hpr] at e2
    refine noPair_of_front (pre := x ++ pre) (post := y) h ?_ ?_
    · conv => lhs; rw [e1, e2]
      simp
    · intro c hc
      rcases List.mem_append.1 hc with hc | hc
      · have := hx c hc
        simp [isC0OrSpace] at this
        omega
      · exact hpre c hc

/-- the parser under a state override -/
theorem basicParse_toScalar_override (env : Env) {s : Str} (hs : IsStr s) (ht : ∀ c ∈ s, isTabNewline c = false)
    (e : Encoding) (u : Rec) {ov : PState} (hov : ov ≠ .opaquePath) :
    ((basicParse env (toScalar s) none e (some u) (some ov)).res, (basicParse env (toScalar s) none e (some u) (some ov)).url) =
      ((basicParse env s none e (some u) (some ov)).res, (basicParse env s none e (some u) (some ov)).url) := by
  rw [basicParse_eval, basicParse_eval, prepared_some, prepared_some, removeTabNewline_toScalar hs ht, removeTabNewline_id ht]
  simp only [Option.getD_some]
  by_cases h : ov = .schemeStart
  · subst h
    rw [eval_step _ _ _ _ (by decide), eval_step _ _ _ _ (by decide), sstep_scal env e none _ hs (by simp)]
    have : ∀ r u, ((sScheme none (some PState.schemeStart) r u).scal).andThen env e none (some .schemeStart) =
        (sScheme none (some PState.schemeStart) r u).andThen env e none (some .schemeStart) := by
      intro r u
      unfold sScheme
      split
      · rfl
      · dsimp only [Option.isSome]
        rw [if_pos rfl]
        show eval env e none _ .eof _ _ = eval env e none _ .eof _ _
        rw [eval_eof, eval_eof]
    exact this _ _
  · exact eval_scal env e none _ ov u hs h (fun h => absurd h hov)

end Urlstd
