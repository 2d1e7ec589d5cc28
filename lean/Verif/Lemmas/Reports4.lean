/-
The validation errors of a whole parse; the reports under a change of the host parser.
-/
import Verif.Lemmas.Reports3
import Verif.Lemmas.HostParser
import Verif.Lemmas.Validity

set_option linter.unusedSimpArgs false
set_option linter.unusedVariables false

namespace Urlstd

open Spec (IsStr IsScalarStr Cfg Ctx Next Outcome State runState codePoint Reports stateErrors Asks asksHost Halts)

/-! ### The error types of a validity object -/

theorem types_ofLog (log : Log) : (ValidityState.ofLog log).errorTypes.reverse = types log := by
  unfold types
  congr 1
  induction log with
  | nil => rfl
  | cons x log ih =>
    show (ValidityState.prepend (ValidityState.ofLog log) x).errorTypes = _
    cases x <;> simp only [ValidityState.prepend, List.map_cons, ih, LogEv.type]

theorem types_eq_nil {log : Log} : types log = [] ↔ log = [] := by
  unfold types
  simp

/-! ### The first two steps -/

theorem dropWhile_self {p : Nat → Bool} {s : Str} : s.dropWhile p = s ↔ ∀ c ∈ s.head?, p c = false := by
  cases s with
  | nil => simp
  | cons c cs =>
    constructor
    · intro h x hx
      rw [List.head?_cons, Option.mem_some_iff] at hx
      subst hx
      by_contra hc
      rw [Bool.not_eq_false] at hc
      rw [List.dropWhile_cons_of_pos hc] at h
      have := congrArg List.length h
      have h2 := (List.dropWhile_sublist p (l := cs)).length_le
      simp at this
      omega
    · intro h
      rw [List.dropWhile_cons_of_neg]
      rw [h c rfl]; simp

theorem stripBoth_self {p : Nat → Bool} {s : Str} :
    stripBoth p s = s ↔ (∀ c ∈ s.head?, p c = false) ∧ ∀ c ∈ s.getLast?, p c = false := by
  constructor
  · intro h
    have h1 : s.dropWhile p = s := by
      have l1 : (stripBoth p s).length ≤ (s.dropWhile p).length := by
        unfold stripBoth
        rw [List.length_reverse]
        exact Nat.le_trans (List.dropWhile_sublist _).length_le (by simp)
      rw [h] at l1
      exact (List.dropWhile_sublist p).eq_of_length_le l1
    refine ⟨dropWhile_self.1 h1, ?_⟩
    unfold stripBoth at h
    rw [h1, List.reverse_eq_iff] at h
    have := dropWhile_self.1 h
    rwa [List.head?_reverse] at this
  · rintro ⟨h1, h2⟩
    unfold stripBoth
    rw [dropWhile_self.2 h1, dropWhile_self.2 (by rw [List.head?_reverse]; exact h2), List.reverse_reverse]

theorem startErrors_eq (s : Str) : Spec.startErrors s =
    types (if (stripBoth isC0OrSpace s).any isTabNewline then
      .ev .invalidURLUnit :: (if stripBoth isC0OrSpace s = s then [] else [.ev .invalidURLUnit])
      else (if stripBoth isC0OrSpace s = s then [] else [.ev .invalidURLUnit] : Log)) := by
  have h1 : ((∃ c ∈ s.head?, Spec.C0OrSpace c) ∨ (∃ c ∈ s.getLast?, Spec.C0OrSpace c)) ↔ ¬ stripBoth isC0OrSpace s = s := by
    rw [stripBoth_self, not_and_or]
    simp only [not_forall, Bool.not_eq_false, isC0OrSpace_iff, exists_prop]
  have h2 : (∃ c ∈ Spec.stripC0 s, Spec.TabOrNewline c) ↔ (stripBoth isC0OrSpace s).any isTabNewline = true := by
    rw [stripC0_eq, List.any_eq_true]
    simp only [isTabNewline_iff]
  unfold Spec.startErrors
  by_cases g1 : stripBoth isC0OrSpace s = s
  · rw [if_neg (fun h => h1.1 h g1), if_pos g1]
    by_cases g2 : (stripBoth isC0OrSpace s).any isTabNewline = true
    · rw [if_pos (h2.2 g2), if_pos g2]; rfl
    · rw [if_neg (fun h => g2 (h2.1 h)), if_neg g2]; rfl
  · rw [if_pos (h1.2 g1), if_neg g1]
    by_cases g2 : (stripBoth isC0OrSpace s).any isTabNewline = true
    · rw [if_pos (h2.2 g2), if_pos g2]; rfl
    · rw [if_neg (fun h => g2 (h2.1 h)), if_neg g2]; rfl

/-! ### A whole parse -/

/-- a parse of the code that does not end with a Python exception records what the standard reports -/
theorem parse_reports {env : Env} {e : Encoding} {s : Str} {base : Option Rec}
    (hdig : env.maxStrDigits = 0 ∨ s.length ≤ env.maxStrDigits)
    (herr : ∀ err, (basicParse env s base e).toExcept = .error err → err.isURLParseError = true) :
    ∃ l, Spec.ParseReports (hostOf env) (reportOf env) s base e l ∧
      Tally base (Spec.dropTabs (Spec.stripC0 s)) l (types (basicParse env s base e).log) := by
  have hbp : basicParse env s base e = run env e (prepared s none) base none maxSteps .schemeStart 0 {}
      (if (stripBoth isC0OrSpace s).any isTabNewline then
        .ev .invalidURLUnit :: (if stripBoth isC0OrSpace s = s then [] else [.ev .invalidURLUnit])
        else (if stripBoth isC0OrSpace s = s then [] else [.ev .invalidURLUnit])) := rfl
  rw [hbp] at herr ⊢
  obtain ⟨l, h1, h2⟩ := run_emits (env := env) (e := e) (s := prepared s none) (base := base) maxSteps .schemeStart 0 {}
    (if (stripBoth isC0OrSpace s).any isTabNewline then
        .ev .invalidURLUnit :: (if stripBoth isC0OrSpace s = s then [] else [.ev .invalidURLUnit])
        else (if stripBoth isC0OrSpace s = s then [] else [.ev .invalidURLUnit])) (by
      intro err h
      refine herr err ?_
      unfold ParseOut.toExcept
      rw [h])
  rw [h2, ← startErrors_eq]
  obtain ⟨l0, g1, g2⟩ := t_start (v := {}) (hdig.imp id (Nat.le_trans (prepared_length_le s))) h1
  refine ⟨Spec.startErrors s ++ l0, ⟨l0, rfl, ?_⟩, ?_⟩
  · rw [prepared_std]; exact g2
  · rw [prepared_std]; exact g1.prepend _

/-! ### The reports under a change of the host parser -/

theorem stateErrors_congr (K : Ctx) (hp : Str → Bool → Option Host) {R R' : Str → Bool → List VErr} (c : Option Nat)
    (rem : Str) (k : Cfg) :
    (asksHost K c k = true → stateErrors K R c rem k = R k.buffer (!Spec.isSpecial k.url.scheme) ∧
      stateErrors (withHost K hp) R' c rem k = R' k.buffer (!Spec.isSpecial k.url.scheme)) ∧
    (asksHost K c k ≠ true → stateErrors (withHost K hp) R' c rem k = stateErrors K R c rem k) := by
  unfold stateErrors asksHost
  have e1 : (withHost K hp).base = K.base := rfl
  have e3 : (withHost K hp).override = K.override := rfl
  rcases hk : k.state with _ | _ | _ | _ | _ | _ | _ | _ | _ | _ | _ | _ | _ | _ | _ | _ | _ | _ | _ | _ | _ <;>
    simp only [e1, e3, Bool.false_eq_true, ne_eq, not_false_eq_true, forall_const, false_implies, true_and]
  case host | hostname =>
    by_cases h1 : (K.override.isSome && k.url.scheme == u!"file") = true
    · simp [h1]
    · simp only [h1, Bool.not_false, Bool.true_and, Bool.false_eq_true, if_false]
      by_cases h2 : (c == some c!":" && !k.inside) = true
      · simp only [h2, if_true]
        by_cases h3 : k.buffer = []
        · simp [h3]
        · by_cases h4 : K.override = some .hostname
          · simp [h3, h4]
          · simp [h3, h4]
      · simp only [h2, Bool.false_eq_true, if_false]
        by_cases h3 : Spec.endsAuthority k.url c = true
        · simp only [h3, if_true, Bool.true_and]
          generalize (Spec.isSpecial k.url.scheme && k.buffer == []) = b4
          generalize (K.override.isSome && k.buffer == [] && (Spec.hasCredentials k.url || k.url.port.isSome)) = b5
          cases b4 <;> cases b5 <;> simp
        · simp [h3]
  case fileHost =>
    by_cases h1 : c = none ∨ c = some c!"/" ∨ c = some c!"\\" ∨ c = some c!"?" ∨ c = some c!"#"
    · have h1' : (c == none || c == some c!"/" || c == some c!"\\" || c == some c!"?" || c == some c!"#") = true := by
        simpa [or_assoc] using h1
      rw [if_pos h1, if_pos h1, h1', Bool.true_and]
      by_cases h2 : (!K.override.isSome && Spec.isDrive k.buffer) = true
      · simp only [h2, if_true]; simp
      · simp only [h2, Bool.false_eq_true, if_false, Bool.not_false, Bool.true_and]
        by_cases h3 : k.buffer = []
        · simp [h3]
        · simp [h3]
    · have h1' : (c == none || c == some c!"/" || c == some c!"\\" || c == some c!"?" || c == some c!"#") = false := by
        rw [Bool.eq_false_iff]; simpa [or_assoc] using h1
      rw [if_neg h1, if_neg h1, h1', Bool.false_and]
      simp

/-- the reports under another host parser with other reports -/
theorem Reports_congr {K : Ctx} {hp : Str → Bool → Option Host} {R R' : Str → Bool → List VErr} {input : Str} {k : Cfg}
    {l : List VErr} (h : ∀ t m, Asks K input k t m → K.hostParse t m = hp t m ∧ R t m = R' t m)
    (hh : Reports K R input k l) : Reports (withHost K hp) R' input k l := by
  have hse : ∀ k : Cfg, (asksHost K (codePoint input k.pointer) k = true →
      R k.buffer (!Spec.isSpecial k.url.scheme) = R' k.buffer (!Spec.isSpecial k.url.scheme)) →
      stateErrors K R (codePoint input k.pointer) (Spec.remaining input k.pointer) k =
      stateErrors (withHost K hp) R' (codePoint input k.pointer) (Spec.remaining input k.pointer) k := by
    intro k hk
    obtain ⟨h1, h2⟩ := stateErrors_congr K hp (R := R) (R' := R') (codePoint input k.pointer) (Spec.remaining input k.pointer) k
    by_cases ha : asksHost K (codePoint input k.pointer) k = true
    · rw [(h1 ha).1, (h1 ha).2, hk ha]
    · rw [h2 ha]
  induction hh with
  | failure hr =>
    rw [hse _ (fun ha => (h _ _ (.now ha)).2)]
    exact .failure (by rw [runState_congr _ _ _ _ _ (fun ha => (h _ _ (.now ha)).1)]; exact hr)
  | ret hr =>
    rw [hse _ (fun ha => (h _ _ (.now ha)).2)]
    exact .ret (by rw [runState_congr _ _ _ _ _ (fun ha => (h _ _ (.now ha)).1)]; exact hr)
  | eof hr he =>
    rw [hse _ (fun ha => (h _ _ (.now ha)).2)]
    exact .eof (by rw [runState_congr _ _ _ _ _ (fun ha => (h _ _ (.now ha)).1)]; exact hr) he
  | next hr he hn ih =>
    rw [hse _ (fun ha => (h _ _ (.now ha)).2)]
    exact .next (by rw [runState_congr _ _ _ _ _ (fun ha => (h _ _ (.now ha)).1)]; exact hr) he
      (ih (fun t m ha => h t m (.later hr he ha)))

/-- whether anything is reported, under another host parser with other reports -/
theorem Reports_nil_congr {K : Ctx} {hp : Str → Bool → Option Host} {R R' : Str → Bool → List VErr} {input : Str} {k : Cfg}
    {l : List VErr} (h : ∀ t m, Asks K input k t m → K.hostParse t m = hp t m ∧ (R t m = [] ↔ R' t m = []))
    (hh : Reports K R input k l) : ∃ l', Reports (withHost K hp) R' input k l' ∧ (l = [] ↔ l' = []) := by
  have hse : ∀ k : Cfg, (asksHost K (codePoint input k.pointer) k = true →
      (R k.buffer (!Spec.isSpecial k.url.scheme) = [] ↔ R' k.buffer (!Spec.isSpecial k.url.scheme) = [])) →
      (stateErrors K R (codePoint input k.pointer) (Spec.remaining input k.pointer) k = [] ↔
      stateErrors (withHost K hp) R' (codePoint input k.pointer) (Spec.remaining input k.pointer) k = []) := by
    intro k hk
    obtain ⟨h1, h2⟩ := stateErrors_congr K hp (R := R) (R' := R') (codePoint input k.pointer) (Spec.remaining input k.pointer) k
    by_cases ha : asksHost K (codePoint input k.pointer) k = true
    · rw [(h1 ha).1, (h1 ha).2, hk ha]
    · rw [h2 ha]
  induction hh with
  | failure hr =>
    exact ⟨_, .failure (by rw [runState_congr _ _ _ _ _ (fun ha => (h _ _ (.now ha)).1)]; exact hr),
      hse _ (fun ha => (h _ _ (.now ha)).2)⟩
  | ret hr =>
    exact ⟨_, .ret (by rw [runState_congr _ _ _ _ _ (fun ha => (h _ _ (.now ha)).1)]; exact hr),
      hse _ (fun ha => (h _ _ (.now ha)).2)⟩
  | eof hr he =>
    exact ⟨_, .eof (by rw [runState_congr _ _ _ _ _ (fun ha => (h _ _ (.now ha)).1)]; exact hr) he,
      hse _ (fun ha => (h _ _ (.now ha)).2)⟩
  | next hr he hn ih =>
    obtain ⟨l', h1, h2⟩ := ih (fun t m ha => h t m (.later hr he ha))
    refine ⟨_, .next (by rw [runState_congr _ _ _ _ _ (fun ha => (h _ _ (.now ha)).1)]; exact hr) he h1, ?_⟩
    rw [List.append_eq_nil_iff, List.append_eq_nil_iff, hse _ (fun ha => (h _ _ (.now ha)).2), h2]

/-- what the standard asks does not depend on the host parser beyond its answers -/
theorem Asks_congr {K : Ctx} {hp : Str → Bool → Option Host} {input : Str} {k : Cfg} {t : Str} {m : Bool}
    (h : ∀ t m, Asks K input k t m → K.hostParse t m = hp t m) (ha : Asks (withHost K hp) input k t m) :
    Asks K input k t m := by
  induction ha with
  | now ha => exact .now ha
  | later hr he hn ih =>
    rw [runState_congr _ _ _ _ _ (fun ha => h _ _ (.now ha))] at hr
    exact .later hr he (ih (fun t m ha => h t m (.later hr he ha)))

/-! ### A host that is not parsed is the end -/

theorem runState_noHost {K : Ctx} {c : Option Nat} {rem : Str} {k : Cfg} (ha : asksHost K c k = true)
    (hn : K.hostParse k.buffer (!Spec.isSpecial k.url.scheme) = none) : ∃ u, runState K c rem k = .failure u := by
  unfold asksHost at ha
  unfold runState
  rcases hk : k.state with _ | _ | _ | _ | _ | _ | _ | _ | _ | _ | _ | _ | _ | _ | _ | _ | _ | _ | _ | _ | _ <;>
    simp only [hk, Bool.false_eq_true] at ha
  case host | hostname =>
    dsimp only
    rw [Bool.and_eq_true] at ha
    obtain ⟨h1, ha⟩ := ha
    rw [if_neg (by rw [Bool.not_eq_true'] at h1; rw [h1]; simp)]
    split at ha
    · rename_i h2
      simp only [Bool.and_eq_true, bne_iff_ne, ne_eq] at ha
      rw [if_pos h2, if_neg ha.1, if_neg ha.2, hn]
      exact ⟨_, rfl⟩
    · rename_i h2
      simp only [Bool.and_eq_true, Bool.not_eq_true'] at ha
      rw [if_neg h2, if_pos ha.1.1, if_neg (by rw [ha.1.2]; simp), if_neg (by rw [ha.2]; simp), hn]
      exact ⟨_, rfl⟩
  case fileHost =>
    dsimp only
    simp only [Bool.and_eq_true, Bool.not_eq_true', bne_iff_ne, ne_eq] at ha
    rw [if_pos (by simpa [or_assoc] using ha.1.1), if_neg (by rw [ha.1.2]; simp), if_neg ha.2, hn]
    exact ⟨_, rfl⟩

theorem Asks.some {K : Ctx} {input : Str} {k : Cfg} {t : Str} {m : Bool} (ha : Asks K input k t m) {u : Rec}
    (hh : Halts K input k (.ok u)) : ∃ h, K.hostParse t m = some h := by
  induction ha with
  | @now k ha =>
    cases hp : K.hostParse k.buffer (!Spec.isSpecial k.url.scheme) with
    | some h => exact ⟨h, rfl⟩
    | none =>
      obtain ⟨v, hv⟩ := runState_noHost (rem := Spec.remaining input k.pointer) ha hp
      cases hh with
      | ret h => rw [hv] at h; cases h
      | eof h _ => rw [hv] at h; cases h
      | next h _ _ => rw [hv] at h; cases h
  | later hr he hn ih =>
    cases hh with
    | ret h => rw [hr] at h; cases h
    | eof h hx => rw [hr] at h; cases h; exact absurd hx he
    | next h _ g => rw [hr] at h; cases h; exact ih g

/-! ### The length of what the host parser is called on -/

/-- the pointer lies in the input, and a buffer that is a piece of the input lies before it -/
structure LenOK (input : Str) (k : Cfg) : Prop where
  low : 0 ≤ k.pointer
  high : k.pointer ≤ input.length
  buffer : hostState k.state = true → (k.buffer.length : Int) ≤ k.pointer
  empty : emptyState k.state = true → k.buffer = []

theorem lenOK_step {K : Ctx} {input : Str} {k k' : Cfg} (h : LenOK input k)
    (hr : runState K (codePoint input k.pointer) (Spec.remaining input k.pointer) k = .go k')
    (he : k'.pointer ≠ input.length) : LenOK input { k' with pointer := k'.pointer + 1 } := by
  have hc : ((codePoint input k.pointer).toList.length : Int) ≤ 1 := by
    cases codePoint input k.pointer <;> simp
  have hrem : (Spec.remaining input k.pointer).head? ≠ none → k.pointer + 1 < input.length := by
    intro hx
    unfold Spec.remaining at hx
    rw [List.head?_drop] at hx
    have := h.low
    by_contra hc
    exact hx (List.getElem?_eq_none (by omega))
  obtain ⟨g1, g2, g3, g4⟩ := h
  generalize codePoint input k.pointer = c at hr hc
  generalize Spec.remaining input k.pointer = rem at hr hrem
  unfold runState at hr
  rcases hk : k.state with _ | _ | _ | _ | _ | _ | _ | _ | _ | _ | _ | _ | _ | _ | _ | _ | _ | _ | _ | _ | _ <;>
    simp only [hk, hostState, emptyState, Bool.not_false, Bool.false_and, Bool.true_and,
      if_true, Bool.false_eq_true, if_false, forall_const, false_implies] at hr g3 g4
  all_goals
    (try unfold runState.portDone at hr)
    (repeat' split at hr)
    all_goals
      first
        | (cases hr; done)
        | (cases hr
           refine ⟨?_, ?_, fun hs => ?_, fun hs => ?_⟩ <;>
           first
            | (dsimp only at he ⊢; omega)
            | (simp only [hk, hostState, emptyState] at hs; done)
            | (simp [hostState, emptyState] at hs; done)
            | (exfalso; simp [hk, hostState, emptyState] at hs; done)
            | (simp [g4]; done)
            | (simp; done)
            | assumption
            | (dsimp only at he ⊢; rw [List.length_append]; omega)
            | (simp only [g4, List.length_nil]; dsimp only at he ⊢; omega)
            | (dsimp only at he ⊢; have := hrem (by simp_all); omega))

theorem asks_length {K : Ctx} {input : Str} {k : Cfg} {t : Str} {m : Bool} (ha : Asks K input k t m) (h : LenOK input k) :
    t.length ≤ input.length := by
  induction ha with
  | @now k ha =>
    have : hostState k.state = true := by
      unfold asksHost at ha
      cases hk : k.state <;> rw [hk] at ha <;> first | rfl | cases ha
    have h1 := h.buffer this
    have h2 := h.high
    omega
  | later hr he hn ih => exact ih (lenOK_step h hr he)

theorem lenOK_start (input : Str) : LenOK input (.start .schemeStart {}) :=
  ⟨Int.le_refl _, by simp [Spec.Cfg.start], fun h => (by cases h), fun _ => rfl⟩

end Urlstd
