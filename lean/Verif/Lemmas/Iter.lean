/-
Iterators and slices: lemmas for C78 and C71.
-/
import Verif.Iter
import Verif.Spec.Iter

namespace Urlstd

set_option linter.unusedSimpArgs false
set_option linter.unusedVariables false

/-! ### Iterators -/

/-- the iterator after `n` more items -/
def ParamsIter.advance (n : Nat) : ParamsIter → ParamsIter
  | .pairs k i => .pairs k (i + n)
  | .strs l i => .strs l (i + n)
  | .exhausted => .exhausted

theorem ParamsIter.next_cases (heap : List Params) (it : ParamsIter) :
    (∃ x, it.next heap = (some x, it.advance 1) ∧ it ≠ .exhausted) ∨ it.next heap = (none, .exhausted) := by
  cases it with
  | pairs k i =>
    unfold ParamsIter.next
    dsimp only
    split
    · exact .inl ⟨_, rfl, by simp⟩
    · exact .inr rfl
  | strs l i =>
    unfold ParamsIter.next
    dsimp only
    split
    · exact .inl ⟨_, rfl, by simp⟩
    · exact .inr rfl
  | exhausted => exact .inr rfl

/-! ### States -/

theorem IterState.run_append (env : Env) (s : IterState) (a b : List IterCmd) :
    s.run env (a ++ b) = (((s.run env a).1 ++ ((s.run env a).2.run env b).1), ((s.run env a).2.run env b).2) := by
  induction a generalizing s with
  | nil => rfl
  | cons c cs ih =>
    show (_ :: ((s.step env c).2.run env (cs ++ b)).1, ((s.step env c).2.run env (cs ++ b)).2) = _
    rw [ih]
    rfl

theorem IterState.run_length (env : Env) (s : IterState) (a : List IterCmd) : (s.run env a).1.length = a.length := by
  induction a generalizing s with
  | nil => rfl
  | cons c cs ih => exact congrArg (· + 1) (ih _)

/-- the current list object exists, and so do those of the iterators -/
structure IterState.OK (s : IterState) : Prop where
  cur : s.cur < s.heap.length
  iters : ∀ it ∈ s.iters, ∀ k i, it = .pairs k i → k < s.heap.length

theorem IterState.ok_ofObj (o : URLObj) : (IterState.ofObj o).OK := ⟨Nat.one_pos, by intro it h; cases h⟩

theorem IterState.OK.step {env : Env} {s : IterState} (h : s.OK) (c : IterCmd) : (s.step env c).2.OK := by
  cases c with
  | op p =>
    unfold IterState.step
    dsimp only
    split
    · refine ⟨by simp, fun it hit k i e => ?_⟩
      have := h.iters it hit k i e
      simp only [List.length_append, List.length_singleton]
      omega
    · refine ⟨by simpa using h.cur, fun it hit k i e => ?_⟩
      simpa using h.iters it hit k i e
  | entries =>
    refine ⟨h.cur, fun it hit k i e => ?_⟩
    rcases List.mem_append.1 hit with hit | hit
    · exact h.iters it hit k i e
    · simp only [List.mem_singleton] at hit
      rw [e] at hit
      cases hit
      exact h.cur
  | keys =>
    refine ⟨h.cur, fun it hit k i e => ?_⟩
    rcases List.mem_append.1 hit with hit | hit
    · exact h.iters it hit k i e
    · simp only [List.mem_singleton] at hit
      rw [e] at hit
      cases hit
  | values =>
    refine ⟨h.cur, fun it hit k i e => ?_⟩
    rcases List.mem_append.1 hit with hit | hit
    · exact h.iters it hit k i e
    · simp only [List.mem_singleton] at hit
      rw [e] at hit
      cases hit
  | next j =>
    unfold IterState.step
    dsimp only
    split
    · exact h
    · next it hit =>
      refine ⟨h.cur, fun it' hit' k i e => ?_⟩
      rcases List.mem_or_eq_of_mem_set hit' with hm | hm
      · exact h.iters it' hm k i e
      · subst hm
        have hmem : it ∈ s.iters := List.mem_of_getElem? hit
        rcases it.next_cases s.heap with ⟨x, hx, -⟩ | hx
        · rw [hx] at e
          cases it with
          | pairs k' i' =>
            have := h.iters _ hmem k' i' rfl
            cases e
            exact this
          | strs l i' => cases e
          | exhausted => cases e
        · rw [hx] at e
          cases e

theorem IterState.OK.run {env : Env} {s : IterState} (h : s.OK) (cs : List IterCmd) : (s.run env cs).2.OK := by
  induction cs generalizing s with
  | nil => exact h
  | cons c cs ih => exact ih (h.step c)

/-- a statement acts on the `URL` as without iterators -/
theorem IterState.OK.obj_op {env : Env} {s : IterState} (h : s.OK) (p : Op) :
    (s.step env (.op p)).2.obj = (applyOp env s.obj p).2 := by
  unfold IterState.step
  dsimp only
  split
  · show URLObj.mk _ ((s.heap ++ [_]).getD s.heap.length []) = _
    rw [List.getD_eq_getElem?_getD, List.getElem?_append_right (Nat.le_refl _)]
    simp
  · show URLObj.mk _ ((s.heap.set s.cur _).getD s.cur []) = _
    rw [List.getD_eq_getElem?_getD, List.getElem?_set_self h.cur]
    rfl

theorem IterState.obj_other {env : Env} {s : IterState} {c : IterCmd} (h : ∀ p, c ≠ .op p) :
    (s.step env c).2.obj = s.obj ∧ (s.step env c).2.heap = s.heap ∧ (s.step env c).2.cur = s.cur := by
  cases c with
  | op p => exact absurd rfl (h p)
  | entries => exact ⟨rfl, rfl, rfl⟩
  | keys => exact ⟨rfl, rfl, rfl⟩
  | values => exact ⟨rfl, rfl, rfl⟩
  | next i =>
    unfold IterState.step
    dsimp only
    split
    · exact ⟨rfl, rfl, rfl⟩
    · exact ⟨rfl, rfl, rfl⟩

open Spec (yieldedBy StoppedBy Rebinds trace opsOf)

theorem trace_nil (env : Env) (s : IterState) : trace env s [] = [] := rfl
theorem trace_cons (env : Env) (s : IterState) (c : IterCmd) (cs : List IterCmd) :
    trace env s (c :: cs) = (c, (s.step env c).1) :: trace env (s.step env c).2 cs := rfl

theorem trace_append (env : Env) (s : IterState) (a b : List IterCmd) :
    trace env s (a ++ b) = trace env s a ++ trace env (s.run env a).2 b := by
  induction a generalizing s with
  | nil => rfl
  | cons c cs ih =>
    rw [List.cons_append, trace_cons, trace_cons, ih]
    rfl

theorem IterState.OK.run_obj {env : Env} {s : IterState} (h : s.OK) (cs : List IterCmd) :
    (s.run env cs).2.obj = applyOps env s.obj (opsOf cs) := by
  induction cs generalizing s with
  | nil => rfl
  | cons c cs ih =>
    show ((s.step env c).2.run env cs).2.obj = _
    rw [ih (h.step c)]
    by_cases hc : ∃ p, c = .op p
    · obtain ⟨p, rfl⟩ := hc
      rw [h.obj_op]
      rfl
    · have hc' : ∀ p, c ≠ .op p := fun p e => hc ⟨p, e⟩
      rw [(IterState.obj_other hc').1]
      cases c with
      | op p => exact absurd rfl (hc' p)
      | entries => rfl
      | keys => rfl
      | values => rfl
      | next i => rfl

theorem rebinds_iff {env : Env} {s : IterState} {p : Op} :
    Rebinds (.op p, (s.step env (.op p)).1) ↔ reattaches env s.obj p = true := by
  have hout : (s.step env (.op p)).1 =
      match (applyOp env s.obj p).1 with | .ok _ => IterOut.nothing | .error e => .raised e := by
    unfold IterState.step
    dsimp only
    split <;> rfl
  unfold Rebinds
  rw [hout]
  unfold reattaches
  constructor
  · rintro ⟨⟨v, h | h⟩, h2⟩
    · cases h
      dsimp only at h2 ⊢
      split at h2
      · next h' => rw [h']
      · cases h2
    · cases h
      dsimp only at h2 ⊢
      split at h2
      · next h' => rw [h']
      · cases h2
  · intro h
    split at h
    · split at h
      · next h' => exact ⟨⟨_, .inl rfl⟩, by rw [h']⟩
      · cases h
    · split at h
      · next h' => exact ⟨⟨_, .inr rfl⟩, by rw [h']⟩
      · cases h
    · cases h

/-! ### One iterator in a run -/

/-- a statement other than `next` keeps the existing iterators -/
theorem IterState.step_iters {env : Env} {s : IterState} {c : IterCmd} {i : Nat} {it : ParamsIter}
    (hi : s.iters[i]? = some it) (hc : c ≠ .next i) : (s.step env c).2.iters[i]? = some it := by
  have hlt : i < s.iters.length := by
    rw [List.getElem?_eq_some_iff] at hi
    exact hi.1
  cases c with
  | op p =>
    unfold IterState.step
    dsimp only
    split <;> exact hi
  | entries => exact (List.getElem?_append_left hlt).trans hi
  | keys => exact (List.getElem?_append_left hlt).trans hi
  | values => exact (List.getElem?_append_left hlt).trans hi
  | next j =>
    unfold IterState.step
    dsimp only
    split
    · exact hi
    · show (s.iters.set j _)[i]? = _
      rw [List.getElem?_set_ne]
      · exact hi
      · rintro rfl
        exact hc rfl

theorem IterState.step_next {env : Env} {s : IterState} {i : Nat} {it : ParamsIter} (hi : s.iters[i]? = some it) :
    (s.step env (.next i)).1 = .yielded (it.next s.heap).1 ∧
      (s.step env (.next i)).2.iters[i]? = some (it.next s.heap).2 ∧
      (s.step env (.next i)).2.heap = s.heap := by
  have hlt : i < s.iters.length := by
    rw [List.getElem?_eq_some_iff] at hi
    exact hi.1
  unfold IterState.step
  dsimp only
  rw [hi]
  dsimp only
  exact ⟨rfl, List.getElem?_set_self hlt, rfl⟩

theorem yieldedBy_cons (i : Nat) (p : IterCmd × IterOut) (t : List (IterCmd × IterOut)) :
    yieldedBy i (p :: t) = (match p with
      | (.next j, .yielded (some _)) => if j = i then 1 else 0
      | _ => 0) + yieldedBy i t := by
  unfold yieldedBy
  rw [List.countP_cons]
  obtain ⟨c, o⟩ := p
  cases c <;> try (simp; done)
  cases o <;> try (simp; done)
  next j x =>
    cases x <;> simp [Nat.add_comm]

theorem yieldedBy_other {i : Nat} {c : IterCmd} (hc : c ≠ .next i) (o : IterOut) (t : List (IterCmd × IterOut)) :
    yieldedBy i ((c, o) :: t) = yieldedBy i t := by
  rw [yieldedBy_cons]
  split
  · next j x heq =>
    cases heq
    rw [if_neg (by rintro rfl; exact hc rfl), Nat.zero_add]
  · rw [Nat.zero_add]

theorem stoppedBy_other {i : Nat} {c : IterCmd} (hc : c ≠ .next i) (o : IterOut) (t : List (IterCmd × IterOut)) :
    StoppedBy i ((c, o) :: t) ↔ StoppedBy i t := by
  unfold StoppedBy
  rw [List.mem_cons]
  constructor
  · rintro (h | h)
    · cases h; exact absurd rfl hc
    · exact h
  · exact .inr

theorem ParamsIter.advance_add (m n : Nat) (it : ParamsIter) : (it.advance m).advance n = it.advance (m + n) := by
  cases it with
  | pairs k i => simp [ParamsIter.advance, Nat.add_assoc]
  | strs l i => simp [ParamsIter.advance, Nat.add_assoc]
  | exhausted => rfl

theorem run_exhausted {env : Env} {i : Nat} (cs : List IterCmd) : ∀ {s : IterState}, s.iters[i]? = some .exhausted →
    (s.run env cs).2.iters[i]? = some .exhausted := by
  induction cs with
  | nil => intro s h; exact h
  | cons c cs ih =>
    intro s h
    refine ih ?_
    by_cases hc : c = .next i
    · subst hc; exact (IterState.step_next h).2.1
    · exact IterState.step_iters h hc

/-- where an iterator is after a run -/
theorem run_iter {env : Env} {i : Nat} (cs : List IterCmd) : ∀ {s : IterState} {it : ParamsIter}, s.iters[i]? = some it →
    (s.run env cs).2.iters[i]? =
      some (if StoppedBy i (trace env s cs) then .exhausted else it.advance (yieldedBy i (trace env s cs))) := by
  induction cs with
  | nil =>
    intro s it h
    rw [trace_nil, if_neg (by unfold StoppedBy; simp)]
    show s.iters[i]? = some (it.advance 0)
    rw [h]
    cases it <;> rfl
  | cons c cs ih =>
    intro s it h
    show ((s.step env c).2.run env cs).2.iters[i]? = _
    rw [trace_cons]
    by_cases hc : c = .next i
    · subst hc
      obtain ⟨h1, h2, -⟩ := IterState.step_next (env := env) h
      rcases it.next_cases s.heap with ⟨x, hx, -⟩ | hx
      · rw [hx] at h1 h2
        rw [ih h2, h1, yieldedBy_cons, ParamsIter.advance_add]
        dsimp only
        rw [if_pos rfl]
        have : StoppedBy i ((IterCmd.next i, IterOut.yielded (some x)) :: trace env (s.step env (.next i)).2 cs) ↔
            StoppedBy i (trace env (s.step env (.next i)).2 cs) := by
          unfold StoppedBy
          rw [List.mem_cons]
          constructor
          · rintro (h | h)
            · cases h
            · exact h
          · exact .inr
        simp only [this]
      · rw [hx] at h1 h2
        rw [run_exhausted cs h2, h1, if_pos (by unfold StoppedBy; exact List.mem_cons_self ..)]
    · rw [ih (IterState.step_iters h hc), yieldedBy_other hc]
      simp only [stoppedBy_other hc]

/-! ### The list object of an iterator -/

/-- the current list object stays the current one -/
theorem run_cur {env : Env} (cs : List IterCmd) : ∀ {s : IterState}, (∀ p ∈ trace env s cs, ¬ Rebinds p) →
    (s.run env cs).2.cur = s.cur := by
  induction cs with
  | nil => intro s _; rfl
  | cons c cs ih =>
    intro s h
    rw [trace_cons] at h
    show ((s.step env c).2.run env cs).2.cur = _
    rw [ih fun p hp => h p (List.mem_cons_of_mem _ hp)]
    by_cases hc : ∃ p, c = .op p
    · obtain ⟨p, rfl⟩ := hc
      have h1 := h _ (List.mem_cons_self ..)
      rw [rebinds_iff, Bool.not_eq_true] at h1
      unfold IterState.step
      dsimp only
      rw [h1]
      rfl
    · exact (IterState.obj_other fun p e => hc ⟨p, e⟩).2.2

/-- a list object that is not the current one does not change any more -/
theorem run_frozen {env : Env} {k : Nat} (cs : List IterCmd) : ∀ {s : IterState}, k < s.heap.length → k ≠ s.cur →
    (s.run env cs).2.heap[k]? = s.heap[k]? := by
  induction cs with
  | nil => intro s _ _; rfl
  | cons c cs ih =>
    intro s hk hne
    show ((s.step env c).2.run env cs).2.heap[k]? = _
    by_cases hc : ∃ p, c = .op p
    · obtain ⟨p, rfl⟩ := hc
      have key : k < (s.step env (.op p)).2.heap.length ∧ k ≠ (s.step env (.op p)).2.cur ∧
          (s.step env (.op p)).2.heap[k]? = s.heap[k]? := by
        unfold IterState.step
        dsimp only
        split
        · refine ⟨?_, ?_, List.getElem?_append_left hk⟩
          · simp only [List.length_append, List.length_singleton]; omega
          · show k ≠ s.heap.length
            omega
        · refine ⟨by simpa using hk, hne, ?_⟩
          show (s.heap.set s.cur _)[k]? = _
          rw [List.getElem?_set_ne (Ne.symm hne)]
      rw [ih key.1 key.2.1, key.2.2]
    · obtain ⟨-, h1, h2⟩ := IterState.obj_other (env := env) (s := s) (c := c) fun p e => hc ⟨p, e⟩
      rw [ih (by rw [h1]; exact hk) (by rw [h2]; exact hne), h1]

/-- an iterator over entries that nothing disturbs -/
theorem run_all {env : Env} {i k : Nat} (n : Nat) : ∀ {s : IterState} {j : Nat}, s.iters[i]? = some (.pairs k j) →
    (s.heap.getD k []).length = j + n →
    (s.run env (List.replicate (n + 1) (.next i))).1 =
      ((s.heap.getD k []).drop j).map (fun nv => IterOut.yielded (some (.pair nv))) ++ [.yielded none] := by
  induction n with
  | zero =>
    intro s j h hl
    have hn : (s.heap.getD k [])[j]? = none := List.getElem?_eq_none (by omega)
    show [(s.step env (.next i)).1] = _
    rw [(IterState.step_next h).1, ParamsIter.next, hn, List.drop_eq_nil_of_le (by omega)]
    rfl
  | succ n ih =>
    intro s j h hl
    have hlt : j < (s.heap.getD k []).length := by omega
    obtain ⟨h1, h2, h3⟩ := IterState.step_next (env := env) h
    have hnx : ParamsIter.next s.heap (.pairs k j) = (some (.pair (s.heap.getD k [])[j]), .pairs k (j + 1)) := by
      unfold ParamsIter.next
      dsimp only
      rw [List.getElem?_eq_getElem hlt]
    rw [hnx] at h1 h2
    show (s.step env (.next i)).1 :: ((s.step env (.next i)).2.run env (List.replicate (n + 1) (.next i))).1 = _
    rw [h1, ih h2 (by rw [h3]; omega), h3, List.drop_eq_getElem_cons hlt]
    rfl

/-! ### Slices -/

theorem sliceBound_eq (len lo hi x : Int) (h : lo ≤ hi) : sliceBound len lo hi x = Spec.bound len lo hi x := by
  unfold sliceBound Spec.bound
  dsimp only
  split <;> split <;> (try split) <;> omega

theorem bound_range (len lo hi x : Int) (h : lo ≤ hi) : lo ≤ Spec.bound len lo hi x ∧ Spec.bound len lo hi x ≤ hi := by
  unfold Spec.bound
  omega

theorem sliceItems_get {α : Type} {l : List α} {step : Int} : ∀ (n : Nat) (i : Int),
    (∀ m : Nat, m < n → 0 ≤ i + m * step ∧ i + m * step < l.length) →
    ∀ m : Nat, (sliceItems l step n i)[m]? = if m < n then l[(i + m * step).toNat]? else none := by
  intro n
  induction n with
  | zero => intro i _ m; simp [sliceItems]
  | succ n ih =>
    intro i h m
    have h0 := h 0 (by omega)
    simp only [Int.ofNat_zero, Int.zero_mul, Int.add_zero] at h0
    have hlt : i.toNat < l.length := by omega
    unfold sliceItems
    rw [List.getElem?_eq_getElem hlt]
    dsimp only
    have e : ∀ m : Nat, i + step + (m : Int) * step = i + ((m + 1 : Nat) : Int) * step := by
      intro m
      rw [Int.natCast_add, Int.add_mul]
      simp only [Int.natCast_one, Int.one_mul]
      omega
    cases m with
    | zero => simp [hlt]
    | succ m =>
      rw [List.getElem?_cons_succ, ih (i + step) (fun k hk => by rw [e]; exact h (k + 1) (by omega)) m, e]
      simp only [Nat.add_lt_add_iff_right]

/-- the items of a slice whose start is `a` and whose end is `b` -/
theorem slice_up {α : Type} {l : List α} {a b k : Int} (hk : 0 < k) (ha : 0 ≤ a) (hb : b ≤ l.length) (n : Nat) :
    (if a < b then sliceItems l k ((b - a - 1) / k + 1).toNat a else [])[n]? =
      if a + n * k < b then l[(a + n * k).toNat]? else none := by
  have hpos : ∀ m : Nat, 0 ≤ (m : Int) * k := fun m => Int.mul_nonneg (by omega) (by omega)
  by_cases hab : a < b
  · rw [if_pos hab]
    have hcount : ∀ m : Nat, m < ((b - a - 1) / k + 1).toNat ↔ a + m * k < b := by
      intro m
      have h1 : (m : Int) ≤ (b - a - 1) / k ↔ (m : Int) * k ≤ b - a - 1 := Int.le_ediv_iff_mul_le hk
      constructor
      · intro h
        have := h1.1 (by omega)
        omega
      · intro h
        have := h1.2 (by omega)
        omega
    rw [sliceItems_get]
    · simp only [hcount]
    · intro m hm
      have := (hcount m).1 hm
      have := hpos m
      omega
  · rw [if_neg hab, if_neg]
    · simp
    · have := hpos n
      omega

theorem slice_down {α : Type} {l : List α} {a b k : Int} (hk : k < 0) (ha : a < l.length) (hb : -1 ≤ b) (n : Nat) :
    (if b < a then sliceItems l k ((a - b - 1) / (-k) + 1).toNat a else [])[n]? =
      if b < a + n * k then l[(a + n * k).toNat]? else none := by
  have hpos : ∀ m : Nat, (m : Int) * k = - ((m : Int) * (-k)) ∧ 0 ≤ (m : Int) * (-k) :=
    fun m => ⟨by rw [Int.mul_neg]; omega, Int.mul_nonneg (by omega) (by omega)⟩
  by_cases hab : b < a
  · rw [if_pos hab]
    have hcount : ∀ m : Nat, m < ((a - b - 1) / (-k) + 1).toNat ↔ b < a + m * k := by
      intro m
      have h1 : (m : Int) ≤ (a - b - 1) / (-k) ↔ (m : Int) * (-k) ≤ a - b - 1 := Int.le_ediv_iff_mul_le (by omega)
      have := hpos m
      constructor
      · intro h
        have := h1.1 (by omega)
        omega
      · intro h
        have := h1.2 (by omega)
        omega
    rw [sliceItems_get]
    · simp only [hcount]
    · intro m hm
      have := (hcount m).1 hm
      have := hpos m
      omega
  · rw [if_neg hab, if_neg]
    · simp
    · have := hpos n
      omega

end Urlstd
