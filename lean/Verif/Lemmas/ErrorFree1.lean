/-
Runs of the parser without a validation error, in both directions: the relation `Quiet`, and the states of paths, queries
and fragments.
-/
import Verif.Lemmas.Writing1
import Verif.Lemmas.Span
import Verif.Lemmas.SuffixEq2
import Verif.Spec.ErrorFree

set_option linter.unusedSimpArgs false
set_option linter.unusedVariables false

namespace Urlstd

open Spec (URLUnits QueryPart FragmentPart PathText PathBehind)

section
variable {env : Env} {e : Encoding} {s : Str} {base : Option Rec}

/-- From the state `st` at the position `i` the parser ends, and records nothing. -/
inductive Quiet (env : Env) (e : Encoding) (s : Str) (base : Option Rec) : PState → Nat → Rec → Prop
  | eof (i : Nat) (url : Rec) : Quiet env e s base .eof i url
  | next {st st' : PState} {i i' : Nat} {url url' : Rec} (h : step env e s base none st i url = .to st' i' url' [])
      (hq : Quiet env e s base st' i' url') : Quiet env e s base st i url

theorem run_log_ne (n : Nat) : ∀ (st : PState) (i : Nat) (url : Rec) (log : Log), log ≠ [] →
    (run env e s base none n st i url log).log ≠ [] := by
  induction n with
  | zero =>
    intro st i url log h
    unfold run
    split <;> exact h
  | succ n ih =>
    intro st i url log h
    unfold run
    split
    · exact h
    · dsimp only
      split
      · simp [h]
      · exact ih _ _ _ _ (by simp [h])

theorem run_quiet (n : Nat) : ∀ (st : PState) (i : Nat) (url : Rec), st.rank ≤ n →
    ((∃ u, run env e s base none n st i url [] = ⟨.ok (), u, []⟩) ↔ Quiet env e s base st i url) := by
  induction n with
  | zero =>
    intro st i url h
    have : st = .eof := by cases st <;> first | rfl | (simp [PState.rank] at h)
    subst this
    exact ⟨fun _ => .eof i url, fun _ => ⟨url, rfl⟩⟩
  | succ n ih =>
    intro st i url h
    by_cases hst : st = .eof
    · subst hst
      exact ⟨fun _ => .eof i url, fun _ => ⟨url, rfl⟩⟩
    · have hb := sstep_below env e base none st (s.drop i) url
      rw [← step_on] at hb
      rcases hs : step env e s base none st i url with ⟨r, u', log'⟩
      cases r with
      | error err =>
        have key : run env e s base none (n + 1) st i url [] = ⟨.error err, u', log' ++ []⟩ := by
          conv => lhs; unfold run
          rw [if_neg hst]
          dsimp only
          rw [hs]
        rw [key]
        constructor
        · rintro ⟨u, hu⟩
          cases hu
        · intro hq
          cases hq with
          | eof => exact absurd rfl hst
          | next h1 h2 =>
            rw [hs] at h1
            cases h1
      | ok r =>
        obtain ⟨st', i'⟩ := r
        rw [hs] at hb
        have hr : st'.rank < st.rank := hb
        have key : run env e s base none (n + 1) st i url [] = run env e s base none n st' i' u' (log' ++ []) := by
          conv => lhs; unfold run
          rw [if_neg hst]
          dsimp only
          rw [hs]
        rw [key, List.append_nil]
        by_cases hl : log' = []
        · subst hl
          rw [ih st' i' u' (by omega)]
          constructor
          · exact fun hq => .next hs hq
          · intro hq
            cases hq with
            | eof => exact absurd rfl hst
            | next h1 h2 =>
              rw [hs] at h1
              cases h1
              exact h2
        · constructor
          · rintro ⟨u, hu⟩
            have := run_log_ne (env := env) (e := e) (s := s) (base := base) n st' i' u' log' hl
            rw [hu] at this
            exact absurd rfl this
          · intro hq
            cases hq with
            | eof => exact absurd rfl hst
            | next h1 h2 =>
              rw [hs] at h1
              cases h1
              exact absurd rfl hl

/-- a state that hands over to another one -/
theorem quiet_via {st st' : PState} {i : Nat} {url url' : Rec} {t t' : Str} {G : Prop} (hd : s.drop i = t)
    (hs : sstep env e base none st t url = .to st' t' url')
    (hG : ∀ j, s.drop j = t' → (Quiet env e s base st' j url' ↔ G)) :
    Quiet env e s base st i url ↔ (step env e s base none st i url).log = [] ∧ G := by
  subst hd
  rw [← step_on] at hs
  rcases hst : step env e s base none st i url with ⟨r, u', log'⟩
  rw [hst] at hs
  cases r with
  | error err => cases hs
  | ok r =>
    obtain ⟨st1, i1⟩ := r
    cases hs
    constructor
    · intro hq
      cases hq with
      | eof => cases hst
      | next h1 h2 =>
        rw [hst] at h1
        cases h1
        exact ⟨rfl, (hG _ rfl).1 h2⟩
    · rintro ⟨h1, h2⟩
      cases h1
      exact .next hst ((hG _ rfl).2 h2)

/-- a state that fails -/
theorem quiet_fail {st : PState} (hst : st ≠ .eof) {i : Nat} {url : Rec} {t : Str} (hd : s.drop i = t) {err : Err} {u : Rec}
    (hs : sstep env e base none st t url = .fail err u) : ¬ Quiet env e s base st i url := by
  subst hd
  rw [← step_on] at hs
  intro hq
  cases hq with
  | eof => exact hst rfl
  | next h1 h2 =>
    rw [h1] at hs
    cases hs

theorem quiet_eof (i : Nat) (url : Rec) : Quiet env e s base .eof i url ↔ True := ⟨fun _ => trivial, fun _ => .eof i url⟩

/-! ### URL units -/

/-- `p`, in front of `r`, is recorded as free of errors -/
def CleanUnits (r : Str) : Str → Prop
  | [] => True
  | c :: cs => unitLog c (cs ++ r) = [] ∧ CleanUnits r cs

theorem cleanUnits_cons {r : Str} {c : Nat} {cs : Str} : CleanUnits r (c :: cs) ↔ unitLog c (cs ++ r) = [] ∧ CleanUnits r cs := Iff.rfl

theorem unitLog_nil {c : Nat} {cs : Str} :
    unitLog c cs = [] ↔ (c = c!"%" ∧ ∃ a b t, cs = a :: b :: t ∧ isHex a = true ∧ isHex b = true) ∨ Spec.URLCodePoint c := by
  rw [urlCodePoint_iff]
  unfold unitLog
  by_cases hp : c = c!"%"
  · subst hp
    have : isUrlCP c!"%" = false := by decide
    simp only [this, true_and]
    rcases cs with _ | ⟨a, _ | ⟨b, t⟩⟩
    · simp
    · simp
    · cases ha : isHex a <;> cases hb : isHex b <;> simp [ha, hb]
      exact ⟨a, b, ⟨rfl, rfl⟩, ha, hb⟩
  · cases hu : isUrlCP c <;> simp [hp]

theorem hex_point {c : Nat} (h : isHex c = true) : Spec.URLCodePoint c := by
  have := hex_lt h
  unfold Spec.URLCodePoint Spec.Letter Spec.Digit
  omega

theorem clean_iff {r : Str} (hr : ∀ c, r.head? = some c → isHex c = false) (p : Str) :
    CleanUnits r p ↔ URLUnits (fun _ => False) p := by
  constructor
  · intro h
    generalize hn : p.length = n
    induction n using Nat.strongRecOn generalizing p with
    | _ n ih =>
      cases p with
      | nil => exact .nil
      | cons c cs =>
        obtain ⟨h1, h2⟩ := h
        rcases unitLog_nil.1 h1 with ⟨rfl, a, b, t, he, ha, hb⟩ | h1
        · rcases cs with _ | ⟨x, _ | ⟨y, cs⟩⟩
          · rw [List.nil_append] at he
            rw [hr a (by rw [he]; rfl)] at ha
            cases ha
          · rw [List.cons_append, List.nil_append, List.cons.injEq] at he
            rw [hr b (by rw [he.2]; rfl)] at hb
            cases hb
          · simp only [List.cons_append, List.cons.injEq] at he
            obtain ⟨rfl, rfl, -⟩ := he
            exact .byte ha hb (ih cs.length (by rw [← hn]; simp only [List.length_cons]; omega) cs h2.2.2 rfl)
        · exact .point h1 (fun h => h) (ih cs.length (by rw [← hn]; simp) cs h2 rfl)
  · intro h
    induction h with
    | nil => trivial
    | point hc hx hs ih => exact ⟨unitLog_nil.2 (.inr hc), ih⟩
    | byte ha hb hs ih =>
      refine ⟨unitLog_nil.2 (.inl ⟨rfl, _, _, _, rfl, ha, hb⟩), unitLog_nil.2 (.inr (hex_point ha)), unitLog_nil.2 (.inr (hex_point hb)), ih⟩

theorem units_question {p : Str} : URLUnits (fun c => c = c!"?") p ↔ URLUnits (fun _ => False) p ∧ c!"?" ∉ p := by
  constructor
  · intro h
    refine ⟨units_mono h (fun c h => h.elim), fun hm => ?_⟩
    rcases units_char h _ hm with h | h | h
    · revert h; decide
    · revert h; decide
    · exact h.2 rfl
  · rintro ⟨h, hm⟩
    induction h with
    | nil => exact .nil
    | point hc hx hs ih =>
      simp only [List.mem_cons, not_or] at hm
      exact .point hc (fun h => hm.1 h.symm) (ih hm.2)
    | byte ha hb hs ih =>
      simp only [List.mem_cons, not_or] at hm
      exact .byte ha hb (ih hm.2.2.2)

/-! ### Spans -/

theorem head_dropWhile {p : Nat → Bool} {t : Str} {c : Nat} (h : (t.dropWhile p).head? = some c) : p c = false := by
  induction t with
  | nil => cases h
  | cons x t ih =>
    rw [List.dropWhile_cons] at h
    split at h
    · exact ih h
    · rename_i hx
      cases h
      simpa using hx

theorem mem_takeWhile {p : Nat → Bool} {t : Str} : ∀ c ∈ t.takeWhile p, p c = true := by
  induction t with
  | nil => intro c hc; cases hc
  | cons x t ih =>
    intro c hc
    rw [List.takeWhile_cons] at hc
    split at hc
    · rename_i hx
      rcases List.mem_cons.1 hc with rfl | hc
      · exact hx
      · exact ih c hc
    · cases hc

/-- a query and a fragment -/
def TailText (t : Str) : Prop := ∃ q f, t = q ++ f ∧ QueryPart q ∧ FragmentPart f

/-- what is behind the "?" -/
def QueryText (t : Str) : Prop := ∃ q f, t = q ++ f ∧ URLUnits (fun _ => False) q ∧ FragmentPart f

theorem fragmentPart_head {f : Str} (h : FragmentPart f) {c : Nat} (hc : f.head? = some c) : c = c!"#" := by
  rcases h with rfl | ⟨f, rfl, -⟩
  · cases hc
  · cases hc; rfl

theorem tailText_head {t : Str} (h : TailText t) {c : Nat} (hc : t.head? = some c) : c = c!"?" ∨ c = c!"#" := by
  obtain ⟨q, f, rfl, hq, hf⟩ := h
  rcases hq with rfl | ⟨q, rfl, -⟩
  · exact .inr (fragmentPart_head hf hc)
  · cases hc; exact .inl rfl

theorem tailText_nil : TailText [] := ⟨[], [], rfl, .inl rfl, .inl rfl⟩

theorem tailText_question {t : Str} : TailText (c!"?" :: t) ↔ QueryText t := by
  constructor
  · rintro ⟨q, f, h, rfl | ⟨q, rfl, hq⟩, hf⟩
    · have := fragmentPart_head hf (c := c!"?") (by rw [← List.nil_append f, ← h]; rfl)
      exact absurd this (by decide)
    · simp only [List.cons_append, List.cons.injEq, true_and] at h
      exact ⟨q, f, h, hq, hf⟩
  · rintro ⟨q, f, rfl, hq, hf⟩
    exact ⟨c!"?" :: q, f, rfl, .inr ⟨q, rfl, hq⟩, hf⟩

theorem tailText_hash {t : Str} : TailText (c!"#" :: t) ↔ URLUnits (fun _ => False) t := by
  constructor
  · rintro ⟨q, f, h, rfl | ⟨q, rfl, hq⟩, hf⟩
    · rcases hf with rfl | ⟨f, rfl, hf⟩
      · cases h
      · cases h; exact hf
    · cases h
  · intro h
    exact ⟨[], c!"#" :: t, rfl, .inl rfl, .inr ⟨t, rfl, h⟩⟩

theorem units_no_hash {ex : Nat → Prop} {p : Str} (h : URLUnits ex p) : c!"#" ∉ p := units_not h (by decide) (by decide)

theorem pathText_split {p r : Str} (hp : ∀ c ∈ p, notQF c = true) (hr : ∀ c, r.head? = some c → notQF c = false) :
    PathText (p ++ r) ↔ URLUnits (fun _ => False) p ∧ TailText r := by
  constructor
  · rintro ⟨p', q, f, h, hu, hq, hf⟩
    have htail : TailText (q ++ f) := ⟨q, f, rfl, hq, hf⟩
    obtain ⟨rfl, rfl⟩ := span_unique (stop := fun c => notQF c = false) h (fun c hc => by rw [hp c hc]; simp)
      (by
        intro c hc
        have h1 := (units_question.1 hu).2
        have h2 := units_no_hash hu
        have c1 : c ≠ c!"?" := by rintro rfl; exact h1 hc
        have c2 : c ≠ c!"#" := by rintro rfl; exact h2 hc
        simp [notQF, c1, c2]) hr
      (by
        intro c hc
        rcases tailText_head htail hc with rfl | rfl <;> rfl)
    exact ⟨(units_question.1 hu).1, htail⟩
  · rintro ⟨hu, q, f, rfl, hq, hf⟩
    refine ⟨p, q, f, rfl, units_question.2 ⟨hu, fun hm => ?_⟩, hq, hf⟩
    have := hp _ hm
    revert this; decide

theorem pathText_slash {t : Str} : PathText (c!"/" :: t) ↔ PathText t := by
  have h1 : t = t.takeWhile notQF ++ t.dropWhile notQF := List.takeWhile_append_dropWhile.symm
  have h2 : c!"/" :: t = (c!"/" :: t.takeWhile notQF) ++ t.dropWhile notQF := by rw [List.cons_append, ← h1]
  conv => rhs; rw [h1]
  rw [h2, pathText_split, pathText_split mem_takeWhile (fun c hc => head_dropWhile hc)]
  · constructor
    · rintro ⟨h, ht⟩
      cases h with
      | point hc hx hs => exact ⟨hs, ht⟩
    · rintro ⟨h, ht⟩
      exact ⟨.point (by decide) (fun h => h) h, ht⟩
  · intro c hc
    rcases List.mem_cons.1 hc with rfl | hc
    · decide
    · exact mem_takeWhile c hc
  · exact fun c hc => head_dropWhile hc

theorem pathText_backslash {t : Str} : ¬ PathText (c!"\\" :: t) := by
  rintro ⟨p, q, f, h, hu, hq, hf⟩
  cases p with
  | nil =>
    have := tailText_head ⟨q, f, rfl, hq, hf⟩ (c := c!"\\") (by rw [← List.nil_append (q ++ f), ← h]; rfl)
    revert this; decide
  | cons c p =>
    cases h
    exact units_not hu (c := c!"\\") (by decide) (by decide) (by simp)

theorem pathText_tail {t : Str} (h : ∀ c, t.head? = some c → notQF c = false) : PathText t ↔ TailText t := by
  have := pathText_split (p := []) (r := t) (by simp) h
  rw [List.nil_append] at this
  rw [this]
  exact ⟨fun h => h.2, fun h => ⟨.nil, h⟩⟩

/-! ### Fragment, query -/

theorem unitsLog_nil_iff (t : Str) : unitsLog t = [] ↔ CleanUnits [] t := by
  induction t with
  | nil => exact ⟨fun _ => trivial, fun _ => rfl⟩
  | cons c t ih =>
    unfold unitsLog CleanUnits
    rw [List.append_eq_nil_iff, ih, List.append_nil]
    exact And.comm

theorem quiet_fragment {i : Nat} {url : Rec} {t : Str} (hd : s.drop i = t) (hu : url.fragment ≠ none) :
    Quiet env e s base .fragment i url ↔ URLUnits (fun _ => False) t := by
  have hs : ∃ u, sstep env e base none .fragment t url = .to .eof [] u := by
    show ∃ u, sFragment t url = _
    unfold sFragment
    split
    · exact ⟨_, rfl⟩
    · cases hf : url.fragment with
      | none => exact absurd hf hu
      | some f => exact ⟨_, rfl⟩
  obtain ⟨u, hs⟩ := hs
  rw [quiet_via hd hs (fun j _ => quiet_eof j u), and_true]
  show (parseFragment s i url).log = [] ↔ _
  unfold parseFragment
  dsimp only
  rw [hd]
  split
  · rename_i h
    rw [List.isEmpty_iff] at h
    subst h
    exact ⟨fun _ => .nil, fun _ => rfl⟩
  · cases hf : url.fragment with
    | none => exact absurd hf hu
    | some f =>
      show unitsLog t = [] ↔ _
      rw [unitsLog_nil_iff, clean_iff (by simp)]

theorem queryLoop_log (t : Str) : ∀ (i : Nat) (buf : Str) (log : Log),
    (queryLoop false t i buf log).2.2.2 = [] ↔ log = [] ∧ CleanUnits (t.dropWhile notHash) (t.takeWhile notHash) := by
  induction t with
  | nil => intro i buf log; exact ⟨fun h => ⟨h, trivial⟩, fun h => h.1⟩
  | cons c t ih =>
    intro i buf log
    unfold queryLoop
    by_cases hc : c = c!"#"
    · subst hc
      exact ⟨fun h => ⟨h, trivial⟩, fun h => h.1⟩
    · have hn : notHash c = true := by simp [notHash, hc]
      rw [if_neg (by simp [hc]), ih, List.takeWhile_cons, List.dropWhile_cons, if_pos hn, if_pos hn, List.append_eq_nil_iff, cleanUnits_cons]
      rw [List.takeWhile_append_dropWhile, and_assoc, and_left_comm]

theorem queryText_split (t : Str) : QueryText t ↔ URLUnits (fun _ => False) (t.takeWhile notHash) ∧ FragmentPart (t.dropWhile notHash) := by
  constructor
  · rintro ⟨q, f, h, hu, hf⟩
    have h1 : t.takeWhile notHash ++ t.dropWhile notHash = q ++ f := by rw [← h]; exact List.takeWhile_append_dropWhile
    obtain ⟨h2, h3⟩ := span_unique (stop := fun c => notHash c = false) h1 (fun c hc => by rw [mem_takeWhile c hc]; simp)
      (by
        intro c hc
        have c2 : c ≠ c!"#" := by rintro rfl; exact units_no_hash hu hc
        simp [notHash, c2]) (fun c hc => head_dropWhile hc)
      (by
        intro c hc
        rw [fragmentPart_head hf hc]; rfl)
    rw [h2, h3]
    exact ⟨hu, hf⟩
  · rintro ⟨h1, h2⟩
    exact ⟨_, _, List.takeWhile_append_dropWhile.symm, h1, h2⟩

theorem quiet_query {i : Nat} {url : Rec} {t : Str} (hd : s.drop i = t) (hu : url.query ≠ none) :
    Quiet env e s base .query i url ↔ QueryText t := by
  have hs : ∃ u, sstep env e base none .query t url = .to .fragment (t.dropWhile notHash).tail u ∧
      ((t.dropWhile notHash) ≠ [] → u.fragment ≠ none) := by
    show ∃ u, sQuery e none t url = _ ∧ _
    unfold sQuery queryText queryRest
    dsimp only
    simp only [show (none : Option PState).isSome = false from rfl, Bool.false_eq_true, if_false]
    split
    · rename_i h
      simp only [Bool.and_eq_true, List.isEmpty_iff] at h
      rw [h.2]
      exact ⟨_, rfl, fun h => absurd rfl h⟩
    · cases hf : url.query with
      | none => exact absurd hf hu
      | some f =>
        refine ⟨_, rfl, fun h => ?_⟩
        rw [if_neg (by simpa using h)]
        simp
  obtain ⟨u, hs, hfr⟩ := hs
  have hG : ∀ j, s.drop j = (t.dropWhile notHash).tail → (Quiet env e s base .fragment j u ↔ FragmentPart (t.dropWhile notHash)) := by
    intro j hj
    cases hr : t.dropWhile notHash with
    | nil =>
      rw [hr] at hj
      have : sstep env e base none .fragment [] u = .to .eof [] u := rfl
      rw [quiet_via hj this (fun j _ => quiet_eof j u)]
      refine ⟨fun _ => .inl rfl, fun _ => ⟨?_, trivial⟩⟩
      show (parseFragment s j u).log = []
      unfold parseFragment
      dsimp only
      rw [hj]
      rfl
    | cons c r =>
      have hc : c = c!"#" := by
        have := head_dropWhile (p := notHash) (t := t) (c := c) (by rw [hr]; rfl)
        simpa [notHash] using this
      subst hc
      rw [hr] at hj
      rw [quiet_fragment hj (hfr (by rw [hr]; simp))]
      constructor
      · exact fun h => .inr ⟨r, rfl, h⟩
      · rintro (h | ⟨f, h, hf⟩)
        · cases h
        · cases h; exact hf
  rw [quiet_via hd hs hG, queryText_split]
  refine and_congr_left fun _ => ?_
  have hlog : (step env e s base none .query i url).log = (queryLoop false t i [] []).2.2.2 := by
    show (parseQuery e s i url none).log = _
    unfold parseQuery
    dsimp only
    rw [hd, show (none : Option PState).isSome = false from rfl]
    rcases queryLoop false t i [] [] with ⟨b, h, i', l⟩
    dsimp only
    split
    · rfl
    · cases hf : url.query with
      | none => exact absurd hf hu
      | some f => rfl
  rw [hlog, queryLoop_log, clean_iff]
  · simp
  · intro c hc
    have := head_dropWhile hc
    have : c = c!"#" := by simpa [notHash] using this
    subst this
    decide

/-! ### Paths -/

theorem opaqueLoop_log (t : Str) : ∀ (i : Nat) (url : Rec) (log : Log),
    (opaqueLoop t i url log).log = [] ↔ log = [] ∧ CleanUnits (t.dropWhile notQF) (t.takeWhile notQF) := by
  induction t with
  | nil => intro i url log; exact ⟨fun h => ⟨h, trivial⟩, fun h => h.1⟩
  | cons c t ih =>
    intro i url log
    unfold opaqueLoop
    by_cases h1 : c = c!"?"
    · subst h1
      exact ⟨fun h => ⟨h, trivial⟩, fun h => h.1⟩
    · by_cases h2 : c = c!"#"
      · subst h2
        exact ⟨fun h => ⟨h, trivial⟩, fun h => h.1⟩
      · have hn : notQF c = true := by simp [notQF, h1, h2]
        rw [if_neg h1, if_neg h2, ih, List.takeWhile_cons, List.dropWhile_cons, if_pos hn, if_pos hn, List.append_eq_nil_iff, cleanUnits_cons]
        rw [List.takeWhile_append_dropWhile, and_assoc, and_left_comm]

theorem pathLoop_log (sch : Str) (t : Str) : ∀ (i : Nat) (buf : Str) (path : List Str) (log : Log),
    (pathLoop sch false t i buf path log).2.2.2 = [] ↔ log = [] ∧ CleanUnits (t.dropWhile notQF) (t.takeWhile notQF) := by
  induction t with
  | nil => intro i buf path log; exact ⟨fun h => ⟨h, trivial⟩, fun h => h.1⟩
  | cons c t ih =>
    intro i buf path log
    unfold pathLoop
    by_cases h0 : c = c!"/"
    · subst h0
      rw [if_pos rfl, ih, List.takeWhile_cons, List.dropWhile_cons, if_pos (by decide), if_pos (by decide), cleanUnits_cons]
      have : ∀ cs, unitLog c!"/" cs = [] := fun cs => unitLog_nil.2 (.inr (by decide))
      rw [this]
      simp
    · rw [if_neg h0]
      by_cases h3 : (isSpecialScheme sch && decide (c = c!"\\")) = true
      · rw [if_pos h3, ih]
        simp only [Bool.and_eq_true, decide_eq_true_eq] at h3
        obtain ⟨-, rfl⟩ := h3
        rw [List.takeWhile_cons, List.dropWhile_cons, if_pos (by decide), if_pos (by decide), cleanUnits_cons]
        constructor
        · rintro ⟨h, -⟩; cases h
        · rintro ⟨-, h, -⟩
          rcases unitLog_nil.1 h with ⟨h, -⟩ | h
          · exact absurd h (by decide)
          · exact absurd h (by decide)
      · rw [if_neg h3]
        by_cases h1 : c = c!"?"
        · subst h1
          exact ⟨fun h => ⟨h, trivial⟩, fun h => h.1⟩
        · by_cases h2 : c = c!"#"
          · subst h2
            exact ⟨fun h => ⟨h, trivial⟩, fun h => h.1⟩
          · have hn : notQF c = true := by simp [notQF, h1, h2]
            rw [if_neg (by simp [h1]), if_neg (by simp [h2]), ih, List.takeWhile_cons, List.dropWhile_cons, if_pos hn, if_pos hn, List.append_eq_nil_iff, cleanUnits_cons]
            rw [List.takeWhile_append_dropWhile, and_assoc, and_left_comm]

theorem notQF_false {c : Nat} : notQF c = false ↔ c = c!"?" ∨ c = c!"#" := by
  simp only [notQF, Bool.not_eq_false', Bool.or_eq_true, decide_eq_true_eq]

theorem clean_path (t : Str) : CleanUnits (t.dropWhile notQF) (t.takeWhile notQF) ↔ URLUnits (fun _ => False) (t.takeWhile notQF) := by
  refine clean_iff ?_ _
  intro c hc
  rcases notQF_false.1 (head_dropWhile hc) with rfl | rfl <;> decide

theorem pathText_iff (t : Str) : PathText t ↔ URLUnits (fun _ => False) (t.takeWhile notQF) ∧ TailText (t.dropWhile notQF) := by
  conv => lhs; rw [← List.takeWhile_append_dropWhile (p := notQF) (l := t)]
  exact pathText_split mem_takeWhile (fun c hc => head_dropWhile hc)

/-- a query, a fragment or nothing, behind a path -/
theorem quiet_after {st st' : PState} {i : Nat} {url u : Rec} {t r : Str} (hd : s.drop i = t)
    (hs : sstep env e base none st t url = afterPath st' r u) (hr : ∀ c, r.head? = some c → notQF c = false)
    (hn : ∀ j, s.drop j = [] → (Quiet env e s base st' j u ↔ True)) :
    Quiet env e s base st i url ↔ (step env e s base none st i url).log = [] ∧ TailText r := by
  cases r with
  | nil =>
    rw [quiet_via hd hs hn]
    simp [tailText_nil]
  | cons c r =>
    unfold afterPath at hs
    dsimp only at hs
    rcases notQF_false.1 (hr c rfl) with rfl | rfl
    · rw [if_pos rfl] at hs
      rw [quiet_via hd hs (fun j hj => quiet_query hj (by simp)), tailText_question]
    · rw [if_neg (by decide)] at hs
      rw [quiet_via hd hs (fun j hj => quiet_fragment hj (by simp)), tailText_hash]

theorem quiet_opaque {i : Nat} {url : Rec} {t : Str} (hd : s.drop i = t) :
    Quiet env e s base .opaquePath i url ↔ PathText t := by
  rw [quiet_after hd (st' := .eof) rfl (fun c hc => head_dropWhile hc) (fun j _ => quiet_eof j _), pathText_iff]
  refine and_congr_left fun _ => ?_
  show (opaqueLoop (s.drop i) i url []).log = [] ↔ _
  rw [hd, opaqueLoop_log, clean_path]
  simp

theorem quiet_path {i : Nat} {url : Rec} {t : Str} (hd : s.drop i = t) {segs : List Str} (hu : url.path = .list segs) :
    Quiet env e s base .path i url ↔ PathText t := by
  have hs : sstep env e base none .path t url = afterPath .opaquePath (t.dropWhile notQF)
      { url with path := .list (addPieces url.scheme segs (pathPieces url.isSpecial (t.takeWhile notQF))) } := by
    show sPath none t url = _
    unfold sPath
    rw [hu]
    rfl
  rw [quiet_after hd hs (fun c hc => head_dropWhile hc), pathText_iff]
  · refine and_congr_left fun _ => ?_
    have : (step env e s base none .path i url).log = (pathLoop url.scheme false t i [] segs []).2.2.2 := by
      show (parsePath s i url none).log = _
      unfold parsePath
      rw [hu]
      dsimp only
      rw [hd]
      rfl
    rw [this, pathLoop_log, clean_path]
    simp
  · intro j hj
    rw [quiet_opaque hj, pathText_tail (by simp)]
    simp [tailText_nil]

theorem quiet_pathStart {i : Nat} {url : Rec} {t : Str} (hd : s.drop i = t) {segs : List Str} (hu : url.path = .list segs) :
    Quiet env e s base .pathStart i url ↔ PathText t := by
  have hlog : (step env e s base none .pathStart i url).log = [] ↔ ¬ (url.isSpecial = true ∧ t.head? = some c!"\\") := by
    show (parsePathStart s i url none).log = [] ↔ _
    unfold parsePathStart
    dsimp only
    rw [hd]
    cases hsp : url.isSpecial with
    | true =>
      rw [if_pos rfl]
      by_cases h : t.head? = some c!"\\"
      · rw [if_pos h]; simp [Out.to, h]
      · rw [if_neg h]
        simp only [h, and_false, not_false_iff, iff_true]
        split <;> rfl
    | false =>
      rw [if_neg (by simp)]
      simp only [Bool.false_eq_true, false_and, not_false_iff, iff_true]
      split
      · rfl
      · split
        · rfl
        · split
          · rfl
          · rw [if_neg (by simp)]; rfl
  have main : ∀ st' t' u', sstep env e base none .pathStart t url = .to st' t' u' →
      (∀ j, s.drop j = t' → (Quiet env e s base st' j u' ↔ PathText t')) → (PathText t' ↔ PathText t) →
      (url.isSpecial = true → t.head? ≠ some c!"\\") → (Quiet env e s base .pathStart i url ↔ PathText t) := by
    intro st' t' u' hs hG ht hb
    rw [quiet_via hd hs hG, ht, hlog]
    exact ⟨fun h => h.2, fun h => ⟨fun h => hb h.1 h.2, h⟩⟩
  cases t with
  | nil =>
    cases hsp : url.isSpecial with
    | true =>
      refine main .path [] url ?_ (fun j hj => quiet_path hj hu) Iff.rfl (by simp)
      show sPathStart none [] url = _
      unfold sPathStart
      dsimp only
      rw [hsp, if_pos rfl]
    | false =>
      refine main .eof [] url ?_ (fun j hj => ?_) Iff.rfl (by simp)
      · show sPathStart none [] url = _
        unfold sPathStart
        dsimp only
        rw [hsp, if_neg (by simp), if_neg (by simp)]
      · rw [quiet_eof, pathText_tail (by simp)]
        simp [tailText_nil]
  | cons c cs =>
    by_cases hsep : isPathSep url.isSpecial c = true
    · have hs : sstep env e base none .pathStart (c :: cs) url = .to .path cs url := by
        show sPathStart none (c :: cs) url = _
        unfold sPathStart
        dsimp only
        rw [if_pos hsep]
      by_cases hc : c = c!"/"
      · subst hc
        exact main _ _ _ hs (fun j hj => quiet_path hj hu) pathText_slash.symm (by simp)
      · simp only [isPathSep, hc, decide_false, Bool.false_or, Bool.and_eq_true, decide_eq_true_eq] at hsep
        obtain ⟨hsp, rfl⟩ := hsep
        rw [quiet_via hd hs (fun j hj => quiet_path hj hu), hlog]
        simp only [hsp, true_and, List.head?_cons, not_true, false_and, false_iff]
        exact pathText_backslash
    · have hb : url.isSpecial = true → (c :: cs).head? ≠ some c!"\\" := by
        intro h h'
        cases h'
        rw [h] at hsep
        exact hsep (by decide)
      have hs : sstep env e base none .pathStart (c :: cs) url =
          if url.isSpecial then .to .path (c :: cs) url
          else if c = c!"?" then .to .query cs { url with query := some [] }
          else if c = c!"#" then .to .fragment cs { url with fragment := some [] }
          else .to .path (c :: cs) url := by
        show sPathStart none (c :: cs) url = _
        unfold sPathStart
        dsimp only
        rw [if_neg hsep]
        simp
      cases hsp : url.isSpecial with
      | true =>
        rw [hsp, if_pos rfl] at hs
        exact main _ _ _ hs (fun j hj => quiet_path hj hu) Iff.rfl hb
      | false =>
        rw [hsp, if_neg (by simp)] at hs
        have hl : (step env e s base none .pathStart i url).log = [] := hlog.2 (by simp [hsp])
        by_cases h1 : c = c!"?"
        · subst h1
          rw [if_pos rfl] at hs
          rw [quiet_via hd hs (fun j hj => quiet_query hj (by simp)), pathText_tail (by simp [notQF]), tailText_question]
          simp [hl]
        · rw [if_neg h1] at hs
          by_cases h2 : c = c!"#"
          · subst h2
            rw [if_pos rfl] at hs
            rw [quiet_via hd hs (fun j hj => quiet_fragment hj (by simp)), pathText_tail (by simp [notQF]), tailText_hash]
            simp [hl]
          · rw [if_neg h2] at hs
            exact main _ _ _ hs (fun j hj => quiet_path hj hu) Iff.rfl hb

end

end Urlstd
