/-
Property C78: iterators of search parameters; slices (an addition to C71).
-/
import Verif.Lemmas.Iter
import Verif.Props.History

namespace Urlstd.Props

open Spec (yieldedBy StoppedBy Rebinds trace opsOf sliceEnds)

/-! ### C71 -/

/-- C71. `params[i:j:k]` follows the Python documentation: it has the items at i, i + k, i + 2k, … that lie before j (behind
j for negative k); the step 0 is a ValueError. -/
theorem C71_slice (l : Params) (start stop step : Option Int) :
    (step = some 0 → spSlice l start stop step = .error .valueError) ∧
    (step ≠ some 0 → ∃ items, spSlice l start stop step = .ok items ∧ ∀ n : Nat,
      let k := step.getD 1
      let i := (sliceEnds l.length start stop k).1
      let j := (sliceEnds l.length start stop k).2
      items[n]? = if 0 < k ∧ i + n * k < j ∨ k < 0 ∧ j < i + n * k then l[(i + n * k).toNat]? else none) := by
  refine ⟨?_, ?_⟩
  · rintro rfl; rfl
  · intro h
    have hk : step.getD 1 ≠ 0 := by
      cases step with
      | none => decide
      | some k => intro h'; exact h (congrArg some h')
    unfold spSlice pySlice
    dsimp only
    rw [if_neg hk]
    generalize step.getD 1 = k at hk
    by_cases hp : 0 < k
    · rw [if_pos hp]
      refine ⟨_, rfl, fun n => ?_⟩
      have e1 : (start.map (sliceBound l.length 0 l.length)).getD 0 = (sliceEnds l.length start stop k).1 := by
        unfold sliceEnds
        rw [if_pos hp]
        cases start with
        | none => rfl
        | some x => exact sliceBound_eq _ _ _ _ (by omega)
      have e2 : (stop.map (sliceBound l.length 0 l.length)).getD (l.length : Int) = (sliceEnds l.length start stop k).2 := by
        unfold sliceEnds
        rw [if_pos hp]
        cases stop with
        | none => rfl
        | some x => exact sliceBound_eq _ _ _ _ (by omega)
      rw [e1, e2, slice_up hp]
      · have : (0 < k ∧ (sliceEnds l.length start stop k).1 + n * k < (sliceEnds l.length start stop k).2 ∨
            k < 0 ∧ (sliceEnds l.length start stop k).2 < (sliceEnds l.length start stop k).1 + n * k) ↔
            (sliceEnds l.length start stop k).1 + n * k < (sliceEnds l.length start stop k).2 := by omega
        simp only [this]
      · unfold sliceEnds
        rw [if_pos hp]
        cases start with
        | none => exact Int.le_refl _
        | some x => exact (bound_range _ _ _ _ (by omega)).1
      · unfold sliceEnds
        rw [if_pos hp]
        cases stop with
        | none => exact Int.le_refl _
        | some x => exact (bound_range _ _ _ _ (by omega)).2
    · rw [if_neg hp]
      refine ⟨_, rfl, fun n => ?_⟩
      have e1 : (start.map (sliceBound l.length (-1) (l.length - 1))).getD (l.length - 1 : Int) =
          (sliceEnds l.length start stop k).1 := by
        unfold sliceEnds
        rw [if_neg hp]
        cases start with
        | none => rfl
        | some x => exact sliceBound_eq _ _ _ _ (by omega)
      have e2 : (stop.map (sliceBound l.length (-1) (l.length - 1))).getD (-1 : Int) = (sliceEnds l.length start stop k).2 := by
        unfold sliceEnds
        rw [if_neg hp]
        cases stop with
        | none => rfl
        | some x => exact sliceBound_eq _ _ _ _ (by omega)
      rw [e1, e2, slice_down (by omega)]
      · have : (0 < k ∧ (sliceEnds l.length start stop k).1 + n * k < (sliceEnds l.length start stop k).2 ∨
            k < 0 ∧ (sliceEnds l.length start stop k).2 < (sliceEnds l.length start stop k).1 + n * k) ↔
            (sliceEnds l.length start stop k).2 < (sliceEnds l.length start stop k).1 + n * k := by omega
        simp only [this]
      · unfold sliceEnds
        rw [if_neg hp]
        cases start with
        | none => show (l.length : Int) - 1 < l.length; omega
        | some x =>
          have := (bound_range l.length (-1) (l.length - 1) x (by omega)).2
          show Spec.bound _ _ _ _ < _
          omega
      · unfold sliceEnds
        rw [if_neg hp]
        cases stop with
        | none => exact Int.le_refl _
        | some x => exact (bound_range _ _ _ _ (by omega)).1

/-- C71. `params[i:j]` for positions i and j, and the reversed list `params[::-1]`. -/
theorem C71_slice_range (l : Params) (i j : Nat) :
    spSlice l (some i) (some j) none = .ok ((spIter l).take j |>.drop i) ∧
    spSlice l none none (some (-1)) = .ok (spIter l).reverse := by
  constructor
  · obtain ⟨items, h1, h2⟩ := (C71_slice l (some i) (some j) none).2 (by simp)
    rw [h1]
    congr 1
    apply List.ext_getElem?
    intro n
    rw [h2]
    have e : sliceEnds l.length (some i) (some j) ((none : Option Int).getD 1) = (min (i : Int) l.length, min (j : Int) l.length) := by
      unfold sliceEnds Spec.bound
      rw [if_pos (by decide)]
      dsimp only
      refine Prod.ext ?_ ?_ <;> (dsimp only; split <;> omega)
    rw [e]
    dsimp only
    show _ = (List.drop i (List.take j l))[n]?
    rw [List.getElem?_drop, List.getElem?_take, Option.getD_none, Int.mul_one]
    by_cases h : i + n < j
    · by_cases h' : i + n < l.length
      · rw [if_pos (by omega), if_pos h]
        congr 1
        omega
      · rw [if_pos h, if_neg (by omega), List.getElem?_eq_none (by omega)]
    · rw [if_neg (by omega), if_neg h]
  · obtain ⟨items, h1, h2⟩ := (C71_slice l none none (some (-1))).2 (by simp)
    rw [h1]
    congr 1
    apply List.ext_getElem?
    intro n
    rw [h2]
    show _ = l.reverse[n]?
    have e : sliceEnds l.length none none ((some (-1) : Option Int).getD 1) = ((l.length : Int) - 1, -1) := by
      unfold sliceEnds
      rw [if_neg (by decide)]
    rw [e]
    dsimp only
    rw [Option.getD_some]
    by_cases h : n < l.length
    · rw [if_pos (by omega), List.getElem?_reverse h]
      congr 1
      omega
    · rw [if_neg (by omega), List.getElem?_eq_none (by simpa using h)]

example : spSlice [(u!"a", []), (u!"b", []), (u!"c", [])] (some 1) (some 9) none = .ok [(u!"b", []), (u!"c", [])] := by rfl
example : spSlice [(u!"a", []), (u!"b", []), (u!"c", [])] (some (-1)) none (some (-2)) = .ok [(u!"c", []), (u!"a", [])] := by
  rfl

/-! ### C78 -/

/-- a program that has run from some `URL` without iterators -/
def IterReached (env : Env) (s : IterState) : Prop := ∃ o pre, s = ((IterState.ofObj o).run env pre).2

theorem IterReached.ok {env : Env} {s : IterState} (h : IterReached env s) : s.OK := by
  obtain ⟨o, pre, rfl⟩ := h
  exact (IterState.ok_ofObj o).run pre

/-- C78. Iterators do not disturb the `URL`: a program has the effect of its operations alone. -/
theorem C78_url (env : Env) (o : URLObj) (cs : List IterCmd) :
    ((IterState.ofObj o).run env cs).2.obj = applyOps env o (opsOf cs) := (IterState.ok_ofObj o).run_obj cs

/-- the state and the number of a new iterator -/
theorem new_iter {env : Env} {s : IterState} {c : IterCmd} {it : ParamsIter}
    (h : (s.step env c).2.iters = s.iters ++ [it]) : (s.step env c).2.iters[s.iters.length]? = some it := by
  rw [h, List.getElem?_append_right (Nat.le_refl _)]
  simp

/-- C78 is false for assignments to `search` (and `href`): an iterator over entries goes on with the old parameters. It is
false for keys and values and every modification: they go on with the names and values at the time of the call. -/
theorem C78_false :
    ((IterState.ofObj ⟨{}, [(u!"a", u!"1"), (u!"b", u!"2")]⟩).run exEnv
      [.entries, .next 0, .op (.search u!"?c=3&d=4"), .next 0]).1 =
      [.nothing, .yielded (some (.pair (u!"a", u!"1"))), .nothing, .yielded (some (.pair (u!"b", u!"2")))] ∧
    ((IterState.ofObj ⟨{}, [(u!"a", u!"1"), (u!"b", u!"2")]⟩).run exEnv
      [.keys, .op (.spDelete u!"a" none), .next 0]).1 = [.nothing, .nothing, .yielded (some (.str u!"a"))] := by
  decide +kernel

/-- C78 (partial: entries, without assignments to `href` and `search` in between). Iteration is live: an iterator over entries
that has yielded n items, and has not ended, next yields the pair at position n of the parameters as they are then, or
ends if there is none. -/
theorem C78_entries_partial (env : Env) (s : IterState) (cs : List IterCmd) :
    let i := s.iters.length
    let s₁ := (s.step env .entries).2
    let s₂ := (s₁.run env cs).2
    (∀ p ∈ trace env s₁ cs, ¬ Rebinds p) →
    (s₂.step env (.next i)).1 = .yielded (if StoppedBy i (trace env s₁ cs) then none
      else (s₂.params[yieldedBy i (trace env s₁ cs)]?).map .pair) := by
  intro i s₁ s₂ hr
  have h1 : s₁.iters[i]? = some (.pairs s.cur 0) := new_iter rfl
  have h2 := run_iter (env := env) cs h1
  have hcur : s₂.cur = s.cur := run_cur cs hr
  rw [(IterState.step_next h2).1]
  split
  · rfl
  · unfold ParamsIter.advance ParamsIter.next IterState.params
    dsimp only
    rw [hcur, Nat.zero_add]
    cases (s₂.heap.getD s.cur [])[yieldedBy i (trace env s₁ cs)]? <;> rfl

/-- C78, what happens otherwise: once `href` or `search` has been assigned, the iterator goes on with the parameters as they
were right before. -/
theorem C78_entries_rebound (env : Env) (s : IterState) (hs : IterReached env s) (cs cs' : List IterCmd) (p : Op) :
    let i := s.iters.length
    let s₁ := (s.step env .entries).2
    let s₂ := (s₁.run env cs).2
    let s₃ := (s₂.step env (.op p)).2
    let s₄ := (s₃.run env cs').2
    let t := trace env s₁ (cs ++ .op p :: cs')
    (∀ p ∈ trace env s₁ cs, ¬ Rebinds p) → Rebinds (.op p, (s₂.step env (.op p)).1) →
    (s₄.step env (.next i)).1 = .yielded (if StoppedBy i t then none else (s₂.params[yieldedBy i t]?).map .pair) := by
  intro i s₁ s₂ s₃ s₄ t hr hp
  have h1 : s₁.iters[i]? = some (.pairs s.cur 0) := new_iter rfl
  have h2 := run_iter (env := env) (cs ++ .op p :: cs') h1
  have e4 : (s₁.run env (cs ++ .op p :: cs')).2 = s₄ := by
    rw [IterState.run_append]
    rfl
  rw [e4] at h2
  have hok : s₂.OK := (hs.ok.step _).run _
  have hcur : s₂.cur = s.cur := run_cur cs hr
  rw [rebinds_iff] at hp
  have h3 : s₃.cur = s₂.heap.length ∧ s₃.heap = s₂.heap ++ [(applyOp env s₂.obj p).2.params] := by
    show (s₂.step env (.op p)).2.cur = _ ∧ (s₂.step env (.op p)).2.heap = _
    unfold IterState.step
    dsimp only
    rw [if_pos hp]
    exact ⟨rfl, rfl⟩
  have hlt := hok.cur
  rw [hcur] at hlt
  have hfr : s₄.heap[s.cur]? = s₂.heap[s.cur]? := by
    rw [run_frozen cs' (by rw [h3.2, List.length_append]; omega) (by rw [h3.1]; omega), h3.2,
      List.getElem?_append_left hlt]
  rw [(IterState.step_next h2).1]
  show _ = IterOut.yielded (if StoppedBy i t then none else _)
  by_cases hst : StoppedBy i t
  · rw [if_pos hst, if_pos hst]
    rfl
  · rw [if_neg hst, if_neg hst]
    unfold ParamsIter.advance ParamsIter.next IterState.params
    dsimp only
    rw [List.getD_eq_getElem?_getD, hfr, ← List.getD_eq_getElem?_getD, hcur, Nat.zero_add]
    show IterOut.yielded (match (s₂.heap.getD s.cur [])[yieldedBy i t]? with
      | some nv => (some (IterItem.pair nv), ParamsIter.pairs s.cur (yieldedBy i t + 1))
      | none => (none, ParamsIter.exhausted)).1 = _
    cases (s₂.heap.getD s.cur [])[yieldedBy i t]? <;> rfl

/-- C78, keys and values: the iterator yields the names or values at the time it was made, whatever happens in between. -/
theorem C78_keys_values (env : Env) (s : IterState) (c : IterCmd) (f : Params → List Str)
    (hc : c = .keys ∧ f = spKeys ∨ c = .values ∧ f = spValues) (cs : List IterCmd) :
    let i := s.iters.length
    let s₁ := (s.step env c).2
    let t := trace env s₁ cs
    ((s₁.run env cs).2.step env (.next i)).1 =
      .yielded (if StoppedBy i t then none else ((f s.params)[yieldedBy i t]?).map .str) := by
  intro i s₁ t
  have h1 : s₁.iters[i]? = some (.strs (f s.params) 0) := by
    rcases hc with ⟨rfl, rfl⟩ | ⟨rfl, rfl⟩
    · exact new_iter rfl
    · exact new_iter rfl
  have h2 := run_iter (env := env) cs h1
  rw [(IterState.step_next h2).1]
  show _ = IterOut.yielded (if StoppedBy i t then none else _)
  by_cases hst : StoppedBy i t
  · rw [if_pos hst, if_pos hst]
    rfl
  · rw [if_neg hst, if_neg hst]
    unfold ParamsIter.advance ParamsIter.next
    dsimp only
    rw [Nat.zero_add]
    show IterOut.yielded (match (f s.params)[yieldedBy i t]? with
      | some nv => (some (IterItem.str nv), ParamsIter.strs (f s.params) (yieldedBy i t + 1))
      | none => (none, ParamsIter.exhausted)).1 = _
    cases (f s.params)[yieldedBy i t]? <;> rfl

/-- C78. An iteration without modifications yields all pairs and ends. -/
theorem C78_all (env : Env) (s : IterState) :
    ((s.step env .entries).2.run env (List.replicate (s.params.length + 1) (.next s.iters.length))).1 =
      (spIter s.params).map (fun nv => .yielded (some (.pair nv))) ++ [.yielded none] := by
  have h1 : (s.step env .entries).2.iters[s.iters.length]? = some (.pairs s.cur 0) := new_iter rfl
  exact run_all s.params.length h1 (Nat.zero_add _).symm

/-- deleting the pair just seen makes the iteration skip the next one -/
example : ((IterState.ofObj ⟨{}, [(u!"a", []), (u!"b", []), (u!"c", [])]⟩).run exEnv
      [.entries, .next 0, .op (.spDelete u!"a" none), .next 0, .next 0, .op (.spAppend u!"d" (.str [])), .next 0]).1 =
    [.nothing, .yielded (some (.pair (u!"a", []))), .nothing, .yielded (some (.pair (u!"c", []))), .yielded none, .nothing,
      .yielded none] := by decide +kernel

/-- a program that meets the conditions of C78_entries_partial and modifies the parameters -/
example : ((((IterState.ofObj exStart).step exEnv .entries).2.run exEnv
      [.next 0, .op (.spAppend u!"z" (.str u!"9")), .op .spSort, .op (.href u!"no url")]).2.step exEnv (.next 0)).1 =
    .yielded (some (.pair (u!"z", u!"9"))) := by
  have h := C78_entries_partial exEnv (IterState.ofObj exStart)
    [.next 0, .op (.spAppend u!"z" (.str u!"9")), .op .spSort, .op (.href u!"no url")] ?_
  · refine h.trans ?_
    decide +kernel
  · decide +kernel

end Urlstd.Props
