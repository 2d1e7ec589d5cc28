/-
Runs of the parser that succeed without a validation error: the states of paths, queries and fragments.
-/
import Verif.Lemmas.Reports1
import Verif.Lemmas.Prepare
import Verif.Spec.Writing

set_option linter.unusedSimpArgs false
set_option linter.unusedVariables false

namespace Urlstd

open Spec (URLUnits QueryPart FragmentPart PathRelative PathAbsolute PathPart Letter)

/-! ### URL units -/

theorem units_log {ex : Nat → Prop} {s : Str} (h : URLUnits ex s) :
    ∀ a c b t, s = a ++ c :: b → unitLog c (b ++ t) = [] := by
  have hexlog : ∀ c cs, isHex c = true → unitLog c cs = [] := by
    intro c cs hc
    have h1 : isUrlCP c = true := by
      rw [← urlCodePoint_iff]
      unfold isHex isDigit at hc
      simp only [Bool.or_eq_true, Bool.and_eq_true, decide_eq_true_eq] at hc
      unfold Spec.URLCodePoint Letter Spec.Digit
      omega
    have h2 : c ≠ c!"%" := by rintro rfl; revert hc; decide
    unfold unitLog
    simp [h1, h2]
  induction h with
  | nil => intro a c b t e; cases a <;> cases e
  | point hc hx hs ih =>
    intro a c b t e
    cases a with
    | nil =>
      cases e
      rename_i c _
      rw [urlCodePoint_iff] at hc
      have h2 : c ≠ c!"%" := by rintro rfl; revert hc; decide
      unfold unitLog
      simp [hc, h2]
    | cons x a =>
      cases e
      exact ih a c b t rfl
  | byte ha hb hs ih =>
    rw [isHex_spec] at ha hb
    intro a c b t e
    cases a with
    | nil =>
      cases e
      unfold unitLog
      simp [ha, hb]
    | cons x a =>
      cases a with
      | nil => cases e; exact hexlog _ _ ha
      | cons y a =>
        cases a with
        | nil => cases e; exact hexlog _ _ hb
        | cons z a => cases e; exact ih a c b t rfl

theorem units_char {ex : Nat → Prop} {s : Str} (h : URLUnits ex s) :
    ∀ c ∈ s, isHex c = true ∨ c = c!"%" ∨ (Spec.URLCodePoint c ∧ ¬ ex c) := by
  induction h with
  | nil => intro c hc; cases hc
  | point hc hx hs ih =>
    intro c h
    rcases List.mem_cons.1 h with rfl | h
    · exact .inr (.inr ⟨hc, hx⟩)
    · exact ih c h
  | byte ha hb hs ih =>
    intro c h
    simp only [List.mem_cons] at h
    rcases h with rfl | rfl | rfl | h
    · exact .inr (.inl rfl)
    · exact .inl ha
    · exact .inl hb
    · exact ih c h

theorem units_append {ex : Nat → Prop} {s t : Str} (h : URLUnits ex s) (ht : URLUnits ex t) : URLUnits ex (s ++ t) := by
  induction h with
  | nil => exact ht
  | point hc hx hs ih => exact .point hc hx ih
  | byte ha hb hs ih => exact .byte ha hb ih

theorem units_mono {ex ex' : Nat → Prop} {s : Str} (h : URLUnits ex s) (hh : ∀ c, ex' c → ex c) : URLUnits ex' s := by
  induction h with
  | nil => exact .nil
  | point hc hx hs ih => exact .point hc (fun h => hx (hh _ h)) ih
  | byte ha hb hs ih => exact .byte ha hb ih

theorem hex_lt {c : Nat} (h : isHex c = true) : (48 ≤ c ∧ c ≤ 57) ∨ (65 ≤ c ∧ c ≤ 70) ∨ (97 ≤ c ∧ c ≤ 102) := by
  unfold isHex isDigit at h
  simp only [Bool.or_eq_true, Bool.and_eq_true, decide_eq_true_eq] at h
  omega

/-- a code point that is not a URL code point, and not "%", is not in a text of URL units -/
theorem units_not {ex : Nat → Prop} {s : Str} (h : URLUnits ex s) {c : Nat} (hc : ¬ Spec.URLCodePoint c) (h2 : c ≠ c!"%") : c ∉ s := by
  intro hm
  rcases units_char h c hm with h | h | h
  · apply hc
    have := hex_lt h
    unfold Spec.URLCodePoint Letter Spec.Digit
    omega
  · exact h2 h
  · exact hc h.1

theorem pathRelative_units {p : Str} (h : PathRelative p) : URLUnits (fun c => c = c!"?") p := by
  obtain ⟨⟨ps, hps, rfl⟩, -⟩ := h
  induction ps with
  | nil => exact .nil
  | cons p ps ih =>
    have hp := units_mono (ex' := fun c => c = c!"?") (hps p (by simp)) (fun c h => .inr h)
    cases ps with
    | nil => exact hp
    | cons q ps =>
      unfold Spec.joinSlash
      exact units_append hp (.point (by decide) (by decide) (ih (fun x hx => hps x (by simp [hx]))))

theorem pathRelative_chars {p : Str} (h : PathRelative p) : c!"?" ∉ p ∧ c!"#" ∉ p ∧ c!"\\" ∉ p := by
  have hu := pathRelative_units h
  refine ⟨?_, units_not hu (by decide) (by decide), units_not hu (by decide) (by decide)⟩
  intro hm
  rcases units_char hu _ hm with h | h | h
  · revert h; decide
  · revert h; decide
  · exact h.2 rfl

/-! ### Silent runs -/

/-- From the state `st` with the rest `rest` of the input the parser succeeds and records nothing. -/
def Silent (env : Env) (e : Encoding) (base : Option Rec) (st : PState) (rest : Str) (url : Rec) (sch : Str) : Prop :=
  ∀ (s : Str) (i n : Nat) (log : Log), s.drop i = rest → st.rank ≤ n →
    ∃ u, run env e s base none n st i url log = ⟨.ok (), u, log⟩ ∧ u.scheme = sch

section
variable {env : Env} {e : Encoding} {base : Option Rec}

theorem silent_eof (rest : Str) (url : Rec) : Silent env e base .eof rest url url.scheme := by
  intro s i n log _ _
  refine ⟨url, ?_, rfl⟩
  unfold run
  rw [if_pos rfl]

theorem silent_step {st st' : PState} {rest rest' : Str} {url url' : Rec} {sch : Str} (hr : st'.rank < st.rank)
    (h : ∀ s i, s.drop i = rest → ∃ i', step env e s base none st i url = .to st' i' url' [] ∧ s.drop i' = rest')
    (hs : Silent env e base st' rest' url' sch) : Silent env e base st rest url sch := by
  intro s i n log hd hn
  obtain ⟨i', h1, h2⟩ := h s i hd
  cases n with
  | zero => omega
  | succ n =>
    obtain ⟨u, hu, hsch⟩ := hs s i' n log h2 (by omega)
    refine ⟨u, ?_, hsch⟩
    unfold run
    rw [if_neg (by rintro rfl; exact absurd hr (by simp [PState.rank])), h1]
    exact hu

theorem drop_after {s : Str} {i c : Nat} {cs : Str} (h : s.drop i = c :: cs) : s.drop (i + 1) = cs := by
  rw [← List.drop_drop, h]; rfl

theorem drop_behind {s : Str} {i : Nat} {a b : Str} (h : s.drop i = a ++ b) : s.drop (i + a.length) = b := by
  rw [← List.drop_drop, h, List.drop_left]

/-! ### Fragment, query -/

theorem unitsLog_nil {s : Str} : (∀ a c b t, s = a ++ c :: b → unitLog c (b ++ t) = []) → unitsLog s = [] := by
  induction s with
  | nil => intro _; rfl
  | cons c s ih =>
    intro h
    unfold unitsLog
    rw [ih (fun a x b t e => h (c :: a) x b t (by rw [e]; rfl))]
    have := h [] c s [] rfl
    rw [List.append_nil] at this
    rw [this]
    rfl

theorem silent_fragment {f : Str} (hf : URLUnits (fun _ => False) f) {url : Rec} (hu : url.fragment ≠ none) :
    Silent env e base .fragment f url url.scheme := by
  cases hfr : url.fragment with
  | none => exact absurd hfr hu
  | some x =>
    by_cases hne : f = []
    · subst hne
      refine silent_step (st' := .eof) (rest' := []) (url' := url) (by decide) ?_ (silent_eof _ _)
      intro s i hd
      refine ⟨i, ?_, hd⟩
      unfold step parseFragment
      simp [hd]
    · refine silent_step (st' := .eof) (rest' := []) (url' := { url with fragment := some (x ++ utf8PercentEncode f safeFragment) })
        (by decide) ?_ (silent_eof _ _)
      intro s i hd
      refine ⟨i + f.length, ?_, by rw [drop_behind (b := []) (by rw [hd, List.append_nil])]⟩
      unfold step parseFragment
      dsimp only
      rw [hd, if_neg (by simpa using hne), hfr]
      dsimp only
      rw [unitsLog_nil (units_log hf)]

theorem queryLoop_silent (t : Str) {q : Str} (hq : c!"#" ∉ q) : ∀ (i : Nat) (buf : Str)
    (hl : ∀ a c b, q = a ++ c :: b → unitLog c (b ++ t) = []),
    queryLoop false (q ++ t) i buf [] = queryLoop false t (i + q.length) (buf ++ q) [] := by
  induction q with
  | nil => intro i buf _; simp
  | cons c q ih =>
    intro i buf hl
    rw [List.cons_append]
    conv => lhs; unfold queryLoop
    have hc : c ≠ c!"#" := by rintro rfl; simp at hq
    rw [if_neg (by simpa using hc), hl [] c q rfl, List.nil_append, ih (fun h => hq (List.mem_cons_of_mem _ h)) _ _ (fun a x b e => hl (c :: a) x b (by rw [e]; rfl))]
    rw [List.append_assoc, List.length_cons]
    congr 1
    omega

theorem silent_query {q f : Str} (hq : URLUnits (fun _ => False) q) (hf : FragmentPart f) {url : Rec} (hu : url.query ≠ none) :
    Silent env e base .query (q ++ f) url url.scheme := by
  have hh : c!"#" ∉ q := units_not hq (by decide) (by decide)
  cases hqr : url.query with
  | none => exact absurd hqr hu
  | some x =>
    have key : ∀ (s : Str) i, s.drop i = q ++ f → queryLoop false (s.drop i) i [] [] = queryLoop false f (i + q.length) q [] := by
      intro s i hd
      rw [hd, queryLoop_silent f hh i [] (fun a c b h => units_log hq a c b f h), List.nil_append]
    rcases hf with rfl | ⟨f, rfl, hf⟩
    · have hfin : ∀ u : Rec, Silent env e base .fragment [] u u.scheme := by
        intro u
        refine silent_step (st' := .eof) (rest' := []) (url' := u) (by decide) ?_ (silent_eof _ _)
        intro s i hd
        refine ⟨i, ?_, hd⟩
        unfold step parseFragment
        simp [hd]
      by_cases hne : q = []
      · subst hne
        refine silent_step (st' := .fragment) (rest' := []) (url' := url) (by decide) ?_ (hfin _)
        intro s i hd
        refine ⟨i, ?_, by simpa using hd⟩
        unfold step parseQuery
        dsimp only
        rw [show (none : Option PState).isSome = false from rfl, key s i hd]
        rfl
      · generalize hU : ({ url with query := some (x ++ stringPercentEncode q (if url.isSpecial then safeSpecialQuery else safeQuery)
            (if !url.isSpecial || url.scheme == u!"ws" || url.scheme == u!"wss" then .utf8 else e)) } : Rec) = U
        have hs : U.scheme = url.scheme := by rw [← hU]
        rw [← hs]
        refine silent_step (st' := .fragment) (rest' := []) (url' := U) (by decide) ?_ (hfin _)
        intro s i hd
        refine ⟨i + q.length, ?_, by rw [drop_behind hd]⟩
        unfold step parseQuery
        dsimp only
        rw [show (none : Option PState).isSome = false from rfl, key s i hd]
        unfold queryLoop
        dsimp only
        rw [if_neg (by simpa using hne), hqr]
        dsimp only
        rw [if_neg (by simp), hU]
    · generalize hU : ({ url with query := some (x ++ stringPercentEncode q (if url.isSpecial then safeSpecialQuery else safeQuery)
            (if !url.isSpecial || url.scheme == u!"ws" || url.scheme == u!"wss" then .utf8 else e)), fragment := some [] } : Rec) = U
      have hs : U.scheme = url.scheme := by rw [← hU]
      rw [← hs]
      refine silent_step (st' := .fragment) (rest' := f) (url' := U) (by decide) ?_ (silent_fragment hf (by rw [← hU]; simp))
      intro s i hd
      refine ⟨i + q.length + 1, ?_, drop_after (drop_behind hd)⟩
      unfold step parseQuery
      dsimp only
      rw [show (none : Option PState).isSome = false from rfl, key s i hd]
      rw [show ∀ j, queryLoop false (c!"#" :: f) j q [] = (q, true, j + 1, []) from fun j => by
        unfold queryLoop
        rw [if_pos (by simp)]]
      dsimp only
      rw [if_neg (by simp), hqr]
      dsimp only
      rw [if_pos rfl, ← hU]

/-! ### Paths -/

theorem silent_opaque_end (url : Rec) : Silent env e base .opaquePath [] url url.scheme := by
  refine silent_step (st' := .eof) (rest' := []) (url' := url) (by decide) ?_ (silent_eof _ _)
  intro s i hd
  refine ⟨i, ?_, hd⟩
  unfold step parseOpaquePath
  simp only [hd]
  rfl

theorem pathLoop_silent (sch : Str) (t : Str) {p : Str} (h1 : c!"?" ∉ p) (h2 : c!"#" ∉ p) (h3 : c!"\\" ∉ p) : ∀ (i : Nat) (buf : Str) (path : List Str)
    (hl : ∀ a c b, p = a ++ c :: b → unitLog c (b ++ t) = []),
    ∃ buf' path', pathLoop sch false (p ++ t) i buf path [] = pathLoop sch false t (i + p.length) buf' path' [] := by
  induction p with
  | nil => intro i buf path _; exact ⟨buf, path, by simp⟩
  | cons c p ih =>
    intro i buf path hl
    have ih' := ih (fun h => h1 (List.mem_cons_of_mem _ h)) (fun h => h2 (List.mem_cons_of_mem _ h)) (fun h => h3 (List.mem_cons_of_mem _ h))
    have hl' := fun a x b (e : p = a ++ x :: b) => hl (c :: a) x b (by rw [e]; rfl)
    have e1 : i + (c :: p).length = i + 1 + p.length := by rw [List.length_cons]; omega
    rw [List.cons_append, e1]
    by_cases hc : c = c!"/"
    · obtain ⟨b', p', h⟩ := ih' (i + 1) [] (addSegment sch path buf true) hl'
      refine ⟨b', p', ?_⟩
      rw [← h]
      conv => lhs; unfold pathLoop
      rw [if_pos hc]
    · obtain ⟨b', p', h⟩ := ih' (i + 1) (buf ++ [c]) path hl'
      refine ⟨b', p', ?_⟩
      rw [← h]
      conv => lhs; unfold pathLoop
      have c1 : c ≠ c!"?" := by rintro rfl; simp at h1
      have c2 : c ≠ c!"#" := by rintro rfl; simp at h2
      have c3 : c ≠ c!"\\" := by rintro rfl; simp at h3
      rw [if_neg hc, if_neg (by simp [c3]), if_neg (by simp [c1]), if_neg (by simp [c2]), hl [] c p rfl]
      rfl

theorem silent_path {p q f : Str} (hp : URLUnits (fun c => c = c!"?") p) (hq : QueryPart q)
    (hf : FragmentPart f) {url : Rec} {segs : List Str} (hu : url.path = .list segs) :
    Silent env e base .path (p ++ (q ++ f)) url url.scheme := by
  have h1 : c!"?" ∉ p := by
    intro hm
    rcases units_char hp _ hm with h | h | h
    · revert h; decide
    · revert h; decide
    · exact h.2 rfl
  have h2 : c!"#" ∉ p := units_not hp (by decide) (by decide)
  have h3 : c!"\\" ∉ p := units_not hp (by decide) (by decide)
  intro s i n log hd
  obtain ⟨b', p', hl⟩ := pathLoop_silent url.scheme (q ++ f) h1 h2 h3 i [] segs (fun a c b h => units_log hp a c b _ h)
  generalize hpa : addSegment url.scheme p' b' false = pa
  have hstep : ∀ (st' : PState) (j : Nat) (U : Rec), 
      pathLoop url.scheme false (q ++ f) (i + p.length) b' p' [] = (pa, st', j, []) →
      (if st' = .fragment then { (if st' = .query then { url with path := .list pa, query := some [] } else { url with path := .list pa }) with fragment := some [] } 
        else (if st' = .query then { url with path := .list pa, query := some [] } else { url with path := .list pa })) = U →
      step env e s base none .path i url = .to st' j U [] := by
    intro st' j U hL hU
    unfold step parsePath
    dsimp only
    rw [hu]
    dsimp only
    rw [show (none : Option PState).isSome = false from rfl, hd, hl, hL]
    dsimp only
    rw [← hU]
  have fin : ∀ (st' : PState) (j : Nat) (U : Rec) (r : Str), step env e s base none .path i url = .to st' j U [] →
      s.drop j = r → st'.rank < PState.rank .path → Silent env e base st' r U url.scheme →
      PState.rank .path ≤ n → ∃ u, run env e s base none n .path i url log = ⟨.ok (), u, log⟩ ∧ u.scheme = url.scheme := by
    intro st' j U r hs hr hrank hsil hn
    cases n with
    | zero => exact absurd hn (by decide)
    | succ n =>
      obtain ⟨u, hu, hsch⟩ := hsil s j n log hr (by omega)
      refine ⟨u, ?_, hsch⟩
      unfold run
      rw [if_neg (by simp), hs]
      exact hu
  rcases hq with rfl | ⟨q, rfl, hq⟩
  · rcases hf with rfl | ⟨f, rfl, hf⟩
    · refine fin .opaquePath (i + p.length) _ [] (hstep _ _ _ ?_ rfl) (by rw [drop_behind hd]; rfl) (by decide) ?_
      · rw [← hpa]; rfl
      · exact silent_opaque_end _
    · refine fin .fragment (i + p.length + 1) _ f (hstep _ _ _ ?_ rfl) (drop_after (drop_behind hd)) (by decide) ?_
      · rw [← hpa]
        rw [List.nil_append]
        unfold pathLoop
        rw [if_neg (by decide), if_neg (by simp), if_neg (by simp), if_pos (by simp)]
      · exact silent_fragment hf (by simp)
  · refine fin .query (i + p.length + 1) _ (q ++ f) (hstep _ _ _ ?_ rfl) (drop_after (drop_behind hd)) (by decide) ?_
    · rw [← hpa]
      rw [List.cons_append]
      unfold pathLoop
      rw [if_neg (by decide), if_neg (by simp), if_pos (by simp)]
    · exact silent_query hq hf (by simp)

theorem silent_opaque {p q f : Str} (hp : URLUnits (fun c => c = c!"?") p) (hq : QueryPart q) (hf : FragmentPart f) {url : Rec} :
    Silent env e base .opaquePath (p ++ (q ++ f)) url url.scheme := by
  have h1 : c!"?" ∉ p := by
    intro hm
    rcases units_char hp _ hm with h | h | h
    · revert h; decide
    · revert h; decide
    · exact h.2 rfl
  have h2 : c!"#" ∉ p := units_not hp (by decide) (by decide)
  have key : ∃ x, ∀ (s : Str) i, s.drop i = p ++ (q ++ f) → step env e s base none .opaquePath i url = opaqueLoop (q ++ f) (i + p.length) { url with path := x } [] := by
    have gen : ∀ (p : Str) (h1 : c!"?" ∉ p) (h2 : c!"#" ∉ p) (url : Rec) (hl : ∀ a c b, p = a ++ c :: b → unitLog c (b ++ (q ++ f)) = []),
        ∃ x, ∀ i, opaqueLoop (p ++ (q ++ f)) i url [] = opaqueLoop (q ++ f) (i + p.length) { url with path := x } [] := by
      intro p
      induction p with
      | nil => intro _ _ url _; exact ⟨url.path, fun i => by simp⟩
      | cons c p ih =>
        intro h1 h2 url hl
        obtain ⟨x, h⟩ := ih (fun h => h1 (List.mem_cons_of_mem _ h)) (fun h => h2 (List.mem_cons_of_mem _ h)) { url with path := url.path.addText (utf8PercentEncode [c] safeC0) }
          (fun a x b e => hl (c :: a) x b (by rw [e]; rfl))
        refine ⟨x, fun i => ?_⟩
        have e1 : i + (c :: p).length = i + 1 + p.length := by rw [List.length_cons]; omega
        rw [List.cons_append, e1]
        rw [← show opaqueLoop (q ++ f) (i + 1 + p.length) { { url with path := url.path.addText (utf8PercentEncode [c] safeC0) } with path := x } [] = opaqueLoop (q ++ f) (i + 1 + p.length) { url with path := x } [] from rfl, ← h]
        conv => lhs; unfold opaqueLoop
        have c1 : c ≠ c!"?" := by rintro rfl; simp at h1
        have c2 : c ≠ c!"#" := by rintro rfl; simp at h2
        rw [if_neg c1, if_neg c2, hl [] c p rfl]
        rfl
    obtain ⟨x, hx⟩ := gen p h1 h2 url (fun a c b h => units_log hp a c b _ h)
    refine ⟨x, fun s i hd => ?_⟩
    unfold step parseOpaquePath
    dsimp only
    rw [hd, hx]
  obtain ⟨x, hx⟩ := key
  rcases hq with rfl | ⟨q, rfl, hq⟩
  · rcases hf with rfl | ⟨f, rfl, hf⟩
    · exact silent_step (st' := .eof) (rest' := []) (url' := { url with path := x }) (by decide)
        (fun s i hd => ⟨_, hx s i hd, by rw [drop_behind hd]; rfl⟩) (silent_eof _ _)
    · refine silent_step (st' := .fragment) (rest' := f) (url' := { url with path := x, fragment := some [] }) (by decide)
        (fun s i hd => ⟨i + p.length + 1, ?_, drop_after (drop_behind hd)⟩) (silent_fragment hf (by simp))
      rw [hx s i hd, List.nil_append]
      unfold opaqueLoop
      rw [if_neg (by decide), if_pos rfl]
  · refine silent_step (st' := .query) (rest' := q ++ f) (url' := { url with path := x, query := some [] }) (by decide)
      (fun s i hd => ⟨i + p.length + 1, ?_, drop_after (drop_behind hd)⟩) (silent_query hq hf (by simp))
    rw [hx s i hd, List.cons_append]
    unfold opaqueLoop
    rw [if_pos rfl]

/-- the path start state -/
theorem silent_pathStart {p q f : Str} (hp : PathPart p) (hq : QueryPart q) (hf : FragmentPart f) {url : Rec} {segs : List Str}
    (hu : url.path = .list segs) : Silent env e base .pathStart (p ++ (q ++ f)) url url.scheme := by
  rcases hp with rfl | ⟨p, rfl, hp⟩
  · -- no path
    have hh : ∀ c, (q ++ f).head? = some c → c = c!"?" ∨ c = c!"#" := by
      intro c hc
      rcases hq with rfl | ⟨q, rfl, hq⟩
      · rcases hf with rfl | ⟨f, rfl, hf⟩
        · cases hc
        · cases hc; exact .inr rfl
      · cases hc; exact .inl rfl
    by_cases hsp : url.isSpecial = true
    · refine silent_step (st' := .path) (rest' := q ++ f) (url' := url) (by decide) (fun s i hd => ⟨i, ?_, hd⟩)
        (silent_path (p := []) .nil hq hf hu)
      unfold step parsePathStart
      dsimp only
      rw [hd, if_pos hsp, List.nil_append, if_neg, if_neg]
      · intro h; have := hh _ h; revert this; decide
      · intro h; have := hh _ h; revert this; decide
    · rcases hq with rfl | ⟨q, rfl, hq⟩
      · rcases hf with rfl | ⟨f, rfl, hf⟩
        · refine silent_step (st' := .eof) (rest' := []) (url' := url) (by decide) (fun s i hd => ⟨i, ?_, hd⟩) (silent_eof _ _)
          unfold step parsePathStart
          simp [hd, hsp]
        · refine silent_step (st' := .fragment) (rest' := f) (url' := { url with fragment := some [] }) (by decide)
            (fun s i hd => ⟨i + 1, ?_, drop_after hd⟩) (silent_fragment hf (by simp))
          unfold step parsePathStart
          simp [hd, hsp]
      · refine silent_step (st' := .query) (rest' := q ++ f) (url' := { url with query := some [] }) (by decide)
          (fun s i hd => ⟨i + 1, ?_, drop_after hd⟩) (silent_query hq hf (by simp))
        unfold step parsePathStart
        simp [hd, hsp]
  · refine silent_step (st' := .path) (rest' := p ++ (q ++ f)) (url' := url) (by decide) (fun s i hd => ⟨i + 1, ?_, drop_after hd⟩)
        (silent_path (pathRelative_units hp) hq hf hu)
    unfold step parsePathStart
    dsimp only
    rw [hd]
    by_cases hsp : url.isSpecial = true
    · rw [if_pos hsp, List.cons_append, List.head?_cons, if_neg (by decide), if_pos rfl]
    · rw [if_neg hsp, List.cons_append, List.head?_cons, if_neg (by simp), if_neg (by simp)]
      dsimp only
      rw [if_pos rfl]

end

end Urlstd
