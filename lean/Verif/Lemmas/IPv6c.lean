/-
The IPv6 parser against the standard's.
-/
import Verif.Lemmas.IPv6b
import Verif.Spec.Example

namespace Urlstd

open Spec (IsV6)

/-! ### Pieces of the standard's parser -/

theorem v6Hex_spec : ∀ (k v l : Nat) (s : Str), ∃ q s', s = q ++ s' ∧ (∀ c ∈ q, isHex c = true) ∧
    q.length ≤ k ∧ (q.length = k ∨ ∀ c t, s' = c :: t → isHex c = false) ∧
    Spec.v6Hex k v l s = (q.foldl (fun a c => a * 16 + digitValue c) v, l + q.length, s') := by
  intro k
  induction k with
  | zero => intro v l s; exact ⟨[], s, rfl, by simp, by simp, .inl rfl, by simp [Spec.v6Hex]⟩
  | succ k ih =>
    intro v l s
    cases s with
    | nil => exact ⟨[], [], rfl, by simp, by simp, .inr (by simp), by simp [Spec.v6Hex]⟩
    | cons c cs =>
      by_cases hc : isHex c = true
      · obtain ⟨q, s', h1, h2, h3, h4, h5⟩ := ih (v * 16 + hexVal c) (l + 1) cs
        refine ⟨c :: q, s', by rw [h1]; rfl, ?_, by simp; omega, ?_, ?_⟩
        · intro x hx
          rcases List.mem_cons.1 hx with rfl | hx
          · exact hc
          · exact h2 x hx
        · rcases h4 with h4 | h4
          · exact .inl (by simp [h4])
          · exact .inr h4
        · rw [Spec.v6Hex, isHex_spec, if_pos hc, hexVal_spec, h5, List.foldl_cons, digitValue_hexVal hc]
          simp; omega
      · refine ⟨[], c :: cs, rfl, by simp, by simp, .inr ?_, ?_⟩
        · intro x t e
          injection e with e1 _
          rw [← e1]; simpa using hc
        · rw [Spec.v6Hex, isHex_spec, if_neg hc]; simp

/-- one IPv4 part as the code reads it -/
def v4Part (x : Str) : Option Nat :=
  if badIPv4Part x = true then none else if numVal 10 x > 255 then none else some (numVal 10 x)

theorem numVal_big {x : Str} (h : badIPv4Part x = false) (hl : 4 ≤ x.length) : 255 < numVal 10 x := by
  obtain ⟨h1, h2, h3⟩ := not_badIPv4Part h
  by_cases hb : 255 < numVal 10 x
  · exact hb
  · have e := natDec_numVal h2 h1 h3
    have := natDec_length (n := numVal 10 x) (k := 3) (by omega) (by omega)
    rw [e] at this
    omega

theorem v4Digits_cons (value : Option Nat) (c : Nat) (cs : Str) :
    Spec.v4Digits value (c :: cs) = if isDigit c then
      match Spec.v4Step value (c - 48) with
      | none => none
      | some v => if v > 255 then none else Spec.v4Digits (some v) cs
    else some (value, c :: cs) := rfl

theorem v4Digits_stop {value : Option Nat} {c : Nat} {cs : Str} (h : isDigit c = false) :
    Spec.v4Digits value (c :: cs) = some (value, c :: cs) := by
  rw [v4Digits_cons, if_neg (by simp [h])]

/-- `v4Digits` after at least one digit -/
theorem v4Digits_go (d : Str) : ∀ (v : Nat) (rest : Str), (∀ c ∈ d, isDigit c = true) →
    (∀ c t, rest = c :: t → isDigit c = false) → 0 < v → v ≤ 255 →
    Spec.v4Digits (some v) (d ++ rest) =
      if d.foldl (fun a c => a * 10 + digitValue c) v > 255 then none
      else some (some (d.foldl (fun a c => a * 10 + digitValue c) v), rest) := by
  induction d with
  | nil =>
    intro v rest _ hr h0 h255
    rw [List.nil_append, List.foldl_nil, if_neg (by omega)]
    cases rest with
    | nil => rfl
    | cons c t => rw [v4Digits_stop (hr c t rfl)]
  | cons c cs ih =>
    intro v rest hd hr h0 h255
    have hc := hd c (by simp)
    have hs : Spec.v4Step (some v) (c - 48) = some (v * 10 + (c - 48)) := by
      simp only [Spec.v4Step]; rw [if_neg (by omega)]
    rw [List.cons_append, v4Digits_cons, if_pos hc, hs]
    have hf : (c :: cs).foldl (fun a c => a * 10 + digitValue c) v =
        cs.foldl (fun a c => a * 10 + digitValue c) (v * 10 + (c - 48)) := by
      rw [List.foldl_cons, digitValue_digit hc]
    rw [hf]
    dsimp only
    by_cases hbig : v * 10 + (c - 48) > 255
    · rw [if_pos hbig, if_pos]
      rw [foldl_num]
      have : 1 ≤ 10 ^ cs.length := Nat.one_le_pow _ _ (by omega)
      have : (v * 10 + (c - 48)) * 1 ≤ (v * 10 + (c - 48)) * 10 ^ cs.length :=
        Nat.mul_le_mul_left _ this
      omega
    · rw [if_neg hbig, ih _ rest (fun x hx => hd x (by simp [hx])) hr (by omega) (by omega)]

theorem v4Digits_part {d rest : Str} (hd : ∀ c ∈ d, isDigit c = true) (hne : d ≠ [])
    (hr : ∀ c t, rest = c :: t → isDigit c = false) :
    Spec.v4Digits none (d ++ rest) = (v4Part d).map fun v => (some v, rest) := by
  cases d with
  | nil => exact absurd rfl hne
  | cons c cs =>
    have hc := hd c (by simp)
    have hcv := isDigit_iff.1 hc
    rw [List.cons_append, v4Digits_cons, if_pos hc]
    simp only [Spec.v4Step]
    rw [if_neg (by omega)]
    by_cases h0 : c = 48
    · subst h0
      cases cs with
      | nil =>
        have : v4Part [48] = some 0 := by decide
        rw [this]
        cases rest with
        | nil => rfl
        | cons x t => rw [List.nil_append, v4Digits_stop (hr x t rfl)]; rfl
      | cons e es =>
        have he := hd e (by simp)
        have : v4Part (48 :: e :: es) = none := by
          rw [v4Part, if_pos]
          simp [badIPv4Part]
        rw [this, List.cons_append, v4Digits_cons, if_pos he]
        rfl
    · have hb : badIPv4Part (c :: cs) = false := by
        unfold badIPv4Part
        simp only [List.isEmpty_cons, Bool.false_or, List.headD_cons, Bool.or_eq_false_iff,
          List.any_eq_false, Bool.not_eq_true', Bool.not_eq_false, Bool.and_eq_false_imp,
          decide_eq_true_eq, beq_eq_false_iff_ne]
        exact ⟨hd, fun _ => h0⟩
      rw [v4Digits_go cs (c - 48) rest (fun x hx => hd x (by simp [hx])) hr (by omega) (by omega)]
      have : cs.foldl (fun a c => a * 10 + digitValue c) (c - 48) = numVal 10 (c :: cs) := by
        unfold numVal
        rw [List.foldl_cons, digitValue_digit hc]; simp
      rw [this, v4Part, hb]
      simp only [Bool.false_eq_true, if_false]
      split <;> rfl

theorem v4Part_digits {x : Str} {v : Nat} (h : v4Part x = some v) :
    (∀ c ∈ x, isDigit c = true) ∧ x ≠ [] ∧ v = numVal 10 x ∧ v ≤ 255 := by
  unfold v4Part at h
  split at h
  · cases h
  · rename_i hb
    split at h
    · cases h
    · injection h with h
      obtain ⟨h1, h2, _⟩ := not_badIPv4Part (by simpa using hb)
      exact ⟨h2, h1, h.symm, by omega⟩

/-- the standard's loop over IPv4 numbers, on the parts -/
def v4Parts : (k : Nat) → (addr : List Nat) → (pieceIndex : Nat) → List Str → Option (List Nat × Nat)
  | 0, addr, i, [] => some (addr, i)
  | k + 1, addr, i, x :: xs => match v4Part x with
    | some v => v4Parts k (addr.set i (addr.getD i 0 * 0x100 + v)) (if k = 2 ∨ k = 0 then i + 1 else i) xs
    | none => none
  | _, _, _, _ => none

/-- one number: `x` up to the next dot -/
theorem v4Digits_cases (x rest : Str) (hdot : 46 ∉ x) (hrest : rest = [] ∨ ∃ t, rest = 46 :: t) :
    (∃ v, v4Part x = some v ∧ Spec.v4Digits none (x ++ rest) = some (some v, rest)) ∨
    (v4Part x = none ∧ (Spec.v4Digits none (x ++ rest) = none ∨
      ∃ w c t, Spec.v4Digits none (x ++ rest) = some (w, c :: t) ∧ c ≠ 46 ∧ isDigit c = false ∧ c ∈ x) ∨
      x = []) := by
  by_cases hx : x = []
  · exact .inr (.inr hx)
  have hrd : ∀ c t, rest = c :: t → isDigit c = false := by
    intro c t e
    rcases hrest with h | ⟨u, h⟩
    · rw [h] at e; cases e
    · rw [h] at e; injection e with e1 _; rw [← e1]; rfl
  by_cases hd : ∀ c ∈ x, isDigit c = true
  · rw [v4Digits_part hd hx hrd]
    cases hv : v4Part x with
    | none => exact .inr (.inl ⟨rfl, .inl rfl⟩)
    | some v => exact .inl ⟨v, rfl, rfl⟩
  · right; left
    have hnone : v4Part x = none := by
      cases hv : v4Part x with
      | none => rfl
      | some v => exact absurd (v4Part_digits hv).1 hd
    refine ⟨hnone, ?_⟩
    -- cut at the first non-digit
    have hsplit : ∃ d c t, x = d ++ c :: t ∧ (∀ y ∈ d, isDigit y = true) ∧ isDigit c = false := by
      clear hnone hx hdot
      induction x with
      | nil => simp at hd
      | cons y ys ih =>
        by_cases hy : isDigit y = true
        · have : ¬ ∀ c ∈ ys, isDigit c = true := by
            intro h; apply hd; intro c hc
            rcases List.mem_cons.1 hc with rfl | hc
            · exact hy
            · exact h c hc
          obtain ⟨d, c, t, h1, h2, h3⟩ := ih this
          refine ⟨y :: d, c, t, by rw [h1]; rfl, ?_, h3⟩
          intro z hz
          rcases List.mem_cons.1 hz with rfl | hz
          · exact hy
          · exact h2 z hz
        · exact ⟨[], y, ys, rfl, by simp, by simpa using hy⟩
    obtain ⟨d, c, t, h1, h2, h3⟩ := hsplit
    have hc46 : c ≠ 46 := by rintro rfl; apply hdot; rw [h1]; simp
    have e : x ++ rest = d ++ (c :: (t ++ rest)) := by rw [h1]; simp
    rw [e]
    have hcx : c ∈ x := by rw [h1]; simp
    by_cases hdn : d = []
    · subst hdn
      right
      refine ⟨none, c, t ++ rest, ?_, hc46, h3, hcx⟩
      exact v4Digits_stop h3
    · rw [v4Digits_part h2 hdn (by intro y u e'; injection e' with e1 _; rw [← e1]; exact h3)]
      cases hv : v4Part d with
      | none => exact .inl rfl
      | some v => exact .inr ⟨some v, c, t ++ rest, rfl, hc46, h3, hcx⟩

theorem joinDot_cons (x : Str) (xs : List Str) :
    ∃ rest, joinWith [46] (x :: xs) = x ++ rest ∧
      ((xs = [] ∧ rest = []) ∨ (xs ≠ [] ∧ rest = 46 :: joinWith [46] xs)) := by
  cases xs with
  | nil => exact ⟨[], by simp [joinWith], .inl ⟨rfl, rfl⟩⟩
  | cons y ys => exact ⟨46 :: joinWith [46] (y :: ys), by simp [joinWith], .inr ⟨by simp, rfl⟩⟩

theorem v4Loop_succ (k : Nat) (addr : List Nat) (i : Nat) (s : Str) :
    Spec.v4Loop (k + 1) addr i s =
      match (if k + 1 = 4 then some s else match s with | 46 :: t => some t | _ => none) with
      | none => none
      | some [] => none
      | some (c :: t) => if isDigit c then
          match Spec.v4Digits none (c :: t) with
          | some (some v, rest) =>
            Spec.v4Loop k (addr.set i (addr.getD i 0 * 0x100 + v)) (if k = 2 ∨ k = 0 then i + 1 else i) rest
          | _ => none
        else none := rfl

/-- the text from the current position on: with a dot unless at the first number -/
def v4Text (k : Nat) (xs : List Str) : Str :=
  if k = 4 then joinWith [46] xs else match xs with
    | [] => []
    | _ :: _ => 46 :: joinWith [46] xs

theorem v4Loop_other (k : Nat) (hk : k ≠ 4) (addr : List Nat) (i c : Nat) (t : Str) (hc : c ≠ 46) :
    Spec.v4Loop k addr i (c :: t) = none := by
  cases k with
  | zero => simp [Spec.v4Loop]
  | succ k =>
    rw [v4Loop_succ, if_neg (by omega)]
    split
    · rfl
    · rfl
    · rename_i h
      split at h
      · rename_i h'; injection h' with h1 _; exact absurd h1 hc
      · cases h

theorem v4Loop_parts : ∀ (k : Nat) (addr : List Nat) (i : Nat) (xs : List Str), k ≤ 4 →
    (∀ x ∈ xs, 46 ∉ x) → (k = 4 → xs ≠ []) →
    Spec.v4Loop k addr i (v4Text k xs) = v4Parts k addr i xs := by
  intro k
  induction k with
  | zero =>
    intro addr i xs _ _ _
    cases xs with
    | nil => simp [v4Text, Spec.v4Loop, v4Parts]
    | cons x xs => simp [v4Text, Spec.v4Loop, v4Parts]
  | succ k ih =>
    intro addr i xs hk hdots hne
    cases xs with
    | nil =>
      have h4 : ¬ k + 1 = 4 := fun h => hne h rfl
      rw [v4Loop_succ]
      simp only [v4Text, h4, if_false, v4Parts]
    | cons x xs =>
      obtain ⟨rest, hj, hrest⟩ := joinDot_cons x xs
      have hs : (if k + 1 = 4 then some (v4Text (k + 1) (x :: xs)) else
          match v4Text (k + 1) (x :: xs) with | 46 :: t => some t | _ => none) = some (x ++ rest) := by
        by_cases h4 : k + 1 = 4
        · simp only [h4, if_true, v4Text, hj]
        · simp only [h4, if_false, v4Text, hj]
      have hrest' : rest = [] ∨ ∃ t, rest = 46 :: t := by
        rcases hrest with ⟨_, h⟩ | ⟨_, h⟩
        · exact .inl h
        · exact .inr ⟨_, h⟩
      have hrt : rest = v4Text k xs := by
        have : ¬ k = 4 := by omega
        rcases hrest with ⟨h1, h⟩ | ⟨h1, h⟩
        · subst h1; simp [v4Text, this, h]
        · cases xs with
          | nil => exact absurd rfl h1
          | cons y ys => simp [v4Text, this, h]
      rw [v4Loop_succ, hs, v4Parts]
      have hx46 := hdots x (by simp)
      rcases v4Digits_cases x rest hx46 hrest' with ⟨v, h1, h2⟩ | h
      · -- a number
        obtain ⟨hd, hxne, _, _⟩ := v4Part_digits h1
        cases x with
        | nil => exact absurd rfl hxne
        | cons c t =>
          rw [List.cons_append] at h2 ⊢
          simp only [hd c (by simp), if_true, h2, h1]
          rw [hrt, ih _ _ xs (by omega) (fun y hy => hdots y (by simp [hy])) (by omega)]
      · rcases h with ⟨h1, h2⟩ | rfl
        · cases x with
          | nil =>
            rcases hrest' with h | ⟨t, h⟩
            · subst h; rw [h1]; rfl
            · subst h; rw [h1]; rfl
          | cons c t =>
            rw [List.cons_append] at h2 ⊢
            rw [h1]
            simp only
            split
            · rcases h2 with h2 | ⟨w, e, u, h2, h3, _⟩
              · rw [h2]
              · rw [h2]
                cases w with
                | none => rfl
                | some w => exact v4Loop_other k (by omega) _ _ e u h3
            · rfl
        · have : v4Part [] = none := rfl
          rw [this]
          rcases hrest' with h | ⟨t, h⟩
          · subst h; rfl
          · subst h; rfl

/-- parts to numbers -/
def v4PartList : List Str → Option (List Nat)
  | [] => some []
  | x :: xs => match v4Part x, v4PartList xs with
    | some v, some vs => some (v :: vs)
    | _, _ => none

theorem v4PartList_some {xs : List Str} {vs : List Nat} (h : v4PartList xs = some vs) :
    xs.length = vs.length ∧ ∀ v ∈ vs, v ≤ 255 := by
  induction xs generalizing vs with
  | nil => simp [v4PartList] at h; subst h; simp
  | cons x xs ih =>
    rw [v4PartList] at h
    cases hv : v4Part x with
    | none => simp [hv] at h
    | some v =>
      cases hl : v4PartList xs with
      | none => simp [hv, hl] at h
      | some ws =>
        simp [hv, hl] at h
        subst h
        obtain ⟨h1, h2⟩ := ih hl
        refine ⟨by simp [h1], ?_⟩
        intro y hy
        rcases List.mem_cons.1 hy with rfl | hy
        · exact (v4Part_digits hv).2.2.2
        · exact h2 y hy

/-- four parts give two pieces -/
theorem v4Parts_four (addr : List Nat) (i : Nat) (hi : i + 1 < addr.length)
    (h0 : addr.getD i 0 = 0) (h1 : addr.getD (i + 1) 0 = 0) (xs : List Str) :
    v4Parts 4 addr i xs = match v4PartList xs with
      | some [a, b, c, d] =>
        some ((addr.set i (a * 0x100 + b)).set (i + 1) (c * 0x100 + d), i + 2)
      | _ => none := by
  match xs with
  | [] => rfl
  | [x1] => simp only [v4Parts, v4PartList]; cases v4Part x1 <;> simp
  | [x1, x2] => simp only [v4Parts, v4PartList]; cases v4Part x1 <;> cases v4Part x2 <;> simp
  | [x1, x2, x3] =>
    simp only [v4Parts, v4PartList]
    cases v4Part x1 <;> cases v4Part x2 <;> cases v4Part x3 <;> simp
  | [x1, x2, x3, x4] =>
    simp only [v4Parts, v4PartList]
    have hi' : i < addr.length := by omega
    rw [getD_lt _ hi'] at h0
    rw [getD_lt _ hi] at h1
    cases v4Part x1 <;> cases v4Part x2 <;> cases v4Part x3 <;> cases v4Part x4 <;>
      simp [hi', hi, h0, h1]
  | x1 :: x2 :: x3 :: x4 :: x5 :: xs =>
    simp only [v4Parts, v4PartList]
    cases v4Part x1 <;> cases v4Part x2 <;> cases v4Part x3 <;> cases v4Part x4 <;> cases v4Part x5 <;>
      cases v4PartList xs <;> simp

/-! ### The IPv4 branch of the code -/

theorem ipv4PartValues_list (env : Env) (he : EnvOK env) {xs : List Str}
    (hb : ∀ x ∈ xs, badIPv4Part x = false) :
    v4PartList xs = match ipv4PartValues env xs with
      | some vs => if vs.any (· > 255) then none else some vs
      | none => none := by
  induction xs with
  | nil => rfl
  | cons x xs ih =>
    have hbx := hb x (by simp)
    obtain ⟨h1, h2, _⟩ := not_badIPv4Part hbx
    rw [v4PartList, ipv4PartValues, ih (fun y hy => hb y (by simp [hy]))]
    by_cases hl : env.maxStrDigits = 0 ∨ x.length ≤ env.maxStrDigits
    · rw [pyInt_numeral env (by omega) (digits_numeral h2) h1 (fun _ => hl)]
      simp only [v4Part, hbx, Bool.false_eq_true, if_false]
      cases ipv4PartValues env xs with
      | none => by_cases h255 : numVal 10 x > 255 <;> simp [h255]
      | some vs =>
        by_cases h255 : numVal 10 x > 255
        · simp [h255]
        · by_cases ha : vs.any (fun x => decide (x > 255)) = true <;> simp [h255, ha]
    · have hbig := numVal_big hbx (by unfold EnvOK at he; omega)
      have hv : v4Part x = none := by simp [v4Part, hbig]
      rw [hv]
      simp only
      cases hp : pyInt env 10 x with
      | none => rfl
      | some w =>
        -- not reachable: the limit applies
        exfalso
        have := pyInt_long env (digits_numeral h2) h1 (by omega)
        rw [this] at hp; cases hp

/-- the part of the state the result depends on -/
def V6.core (st : V6) : List Nat × Nat × Option Nat := (st.addr, st.pieceIndex, st.compress)

theorem v6IPv4_val (env : Env) (he : EnvOK env) (st : V6) (b : Bool) (hl : st.addr.length = 8) :
    (v6IPv4 env st b).val.map V6.core = if st.pieceIndex > 6 then none else
      match v4PartList (splitOn 46 st.piece) with
      | some [a, b, c, d] => some ((st.addr.set st.pieceIndex (a * 0x100 + b)).set (st.pieceIndex + 1)
          (c * 0x100 + d), st.pieceIndex + 2, st.compress)
      | _ => none := by
  unfold v6IPv4
  by_cases h6 : st.pieceIndex > 6
  · rw [if_pos h6, if_pos h6]; rfl
  rw [if_neg h6, if_neg h6]
  dsimp only
  by_cases hb : (decide ((splitOn 46 st.piece).length > 4) || (splitOn 46 st.piece).any badIPv4Part) = true
  · rw [if_pos hb]
    cases hv : v4PartList (splitOn 46 st.piece) with
    | none => rfl
    | some vs =>
      obtain ⟨h1, h2⟩ := v4PartList_some hv
      simp only [Bool.or_eq_true, decide_eq_true_eq] at hb
      rcases hb with hb | hb
      · match vs, h1 with
        | [], _ => rfl
        | [_], _ => rfl
        | [_, _], _ => rfl
        | [_, _, _], _ => rfl
        | [_, _, _, _], h1 => simp at h1; omega
        | _ :: _ :: _ :: _ :: _ :: _, _ => rfl
      · exfalso
        clear h1 h2
        obtain ⟨x, hx, hbx⟩ := List.any_eq_true.1 hb
        have : ∀ xs vs, v4PartList xs = some vs → ∀ x ∈ xs, badIPv4Part x = false := by
          intro xs
          induction xs with
          | nil => intro vs _ x hx; cases hx
          | cons y ys ih =>
            intro vs hv x hx
            rw [v4PartList] at hv
            cases h3 : v4Part y with
            | none => simp [h3] at hv
            | some w =>
              cases h4 : v4PartList ys with
              | none => simp [h3, h4] at hv
              | some ws =>
                rcases List.mem_cons.1 hx with rfl | hx
                · unfold v4Part at h3
                  split at h3
                  · cases h3
                  · rename_i h5; simpa using h5
                · exact ih ws h4 x hx
        rw [this _ _ hv x hx] at hbx
        cases hbx
  rw [if_neg hb]
  simp only [Bool.not_eq_true, Bool.or_eq_false_iff, List.any_eq_false] at hb
  rw [ipv4PartValues_list env he (fun x hx => by simpa using hb.2 x hx)]
  cases ipv4PartValues env (splitOn 46 st.piece) with
  | none => rfl
  | some vs =>
    dsimp only
    by_cases ho : (vs.any (· > 255)) = true
    · rw [if_pos ho, if_pos ho]; rfl
    rw [if_neg ho, if_neg ho]
    match vs with
    | [] => rfl
    | [_] => rfl
    | [_, _] => rfl
    | [_, _, _] => rfl
    | [a, b', c, d] =>
      dsimp only
      rw [if_pos (by omega)]; rfl
    | _ :: _ :: _ :: _ :: _ :: _ => rfl

/-! ### Synchronising the two loops -/

/-- a piece that is neither hexadecimal nor IPv4 fails -/
theorem v6Piece_bad (env : Env) (he : EnvOK env) (st : V6) (b : Bool) (hl : st.addr.length = 8)
    (q t : Str) (x : Nat) (hp : st.piece = q ++ x :: t) (hq : ∀ c ∈ q, isHex c = true)
    (hx : q.length = 4 ∨ isHex x = false) (hx46 : x ≠ 46) : (v6Piece env st b).val = none := by
  have hne : st.piece ≠ [] := by rw [hp]; simp
  unfold v6Piece
  rw [if_neg (by simpa using hne)]
  by_cases hd : st.piece.contains 46 = true
  · rw [if_neg (by simp only [hd]; decide)]
    have hv := v6IPv4_val env he st b hl
    have hsuff : v4PartList (splitOn 46 st.piece) = none := by
      obtain ⟨f, r, hs⟩ := splitOn_cons 46 st.piece
      have hpre := splitOn_prefix hs
      rw [hs, v4PartList]
      -- the first part goes beyond `q ++ [x]`
      have hf : ∃ f', f = q ++ x :: f' := by
        have hq46 : ∀ c ∈ q, c ≠ 46 := by
          intro c hc; rintro rfl; exact absurd (hq 46 hc) (by decide)
        rw [hp] at hs
        clear hp hpre hv hd hne hx hq
        induction q generalizing f with
        | nil =>
          obtain ⟨h', t', h2⟩ := splitOn_cons 46 t
          rw [List.nil_append, splitOn_other hx46 h2] at hs
          injection hs with h3 _
          exact ⟨h', by rw [← h3]; rfl⟩
        | cons c cs ih =>
          obtain ⟨h', t', h2⟩ := splitOn_cons 46 (cs ++ x :: t)
          rw [List.cons_append, splitOn_other (hq46 c (by simp)) h2] at hs
          injection hs with h3 h4
          subst h3 h4
          obtain ⟨f', h5⟩ := ih h' h2 (fun c hc => hq46 c (by simp [hc]))
          exact ⟨f', by rw [h5]; rfl⟩
      obtain ⟨f', hf⟩ := hf
      have : v4Part f = none := by
        cases hv : v4Part f with
        | none => rfl
        | some v =>
          exfalso
          obtain ⟨h1, h2, h3, h4⟩ := v4Part_digits hv
          rcases hx with hx | hx
          · have hbf : badIPv4Part f = false := by
              unfold v4Part at hv
              split at hv
              · cases hv
              · rename_i h5; simpa using h5
            have := numVal_big hbf (by rw [hf]; simp [hx])
            omega
          · have := h1 x (by rw [hf]; simp)
            have h6 : isHex x = true := by
              rw [isHex_iff]; exact .inl (isDigit_iff.1 this)
            rw [hx] at h6; cases h6
      rw [this]
    rw [hsuff] at hv
    simp only [ite_self, Option.map_eq_none_iff] at hv
    exact hv
  · rw [if_pos (by simpa using hd), if_pos]
    · rfl
    · rw [hp]
      simp only [Bool.or_eq_true, decide_eq_true_eq, List.any_eq_true]
      rcases hx with hx | hx
      · left; simp [hx]
      · right; exact ⟨x, by simp, by simp [hx]⟩

theorem v6Loop_piece_none (env : Env) (st : V6) (hc : st.prevColon = false) (rest : Str)
    (hr : rest = [] ∨ ∃ t, rest = 58 :: t) (h : ∀ b, (v6Piece env st b).val = none) :
    (v6Loop env rest st).val = none := by
  rcases hr with rfl | ⟨t, rfl⟩
  · rw [v6Loop]
    split
    · rfl
    · rw [if_neg (by simp [hc])]; exact h false
  · rw [v6Loop]
    split
    · rfl
    · rw [if_neg (by simp), if_neg (by simp [hc])]
      have := h true
      rcases hp : v6Piece env st true with ⟨r, l⟩
      rw [hp] at this
      cases r with
      | error e => rfl
      | ok s => simp [Res.val] at this

/-- no dot before a colon -/
def NoDotColon (s : Str) : Prop := ∀ x y, s = x ++ 46 :: y → 58 ∉ y

/-- not the text that ends in "::" behind seven pieces -/
def NoEighth (i : Nat) (b : Bool) (s : Str) : Prop :=
  ¬ (i + s.count 58 = 8 ∧ ((∃ t, s = t ++ u!"::") ∨ (b = true ∧ s = u!":")))

theorem v6Loop_agree (env : Env) (he : EnvOK env) : ∀ (n : Nat) (s : Str), s.length ≤ n →
    ∀ st : V6, st.piece = [] → st.addr.length = 8 → st.pieceIndex ≤ 8 →
    (∀ j, st.pieceIndex ≤ j → st.addr.getD j 0 = 0) →
    (∀ c, st.compress = some c → c ≤ st.pieceIndex) →
    (st.prevColon = true ∨ ∃ c t, s = c :: t ∧ c ≠ 58) →
    (s = [] → st.compress = some st.pieceIndex ∧ st.pieceIndex < 8) →
    NoDotColon s → (st.compress = none → NoEighth st.pieceIndex st.prevColon s) →
    (v6Loop env s st).val.map V6.core = Spec.v6Loop (8 - st.pieceIndex) st.addr st.compress s := by
  intro n
  induction n with
  | zero =>
    intro s hn st hp hl hi hz hc hs hnil hd h8
    have : s = [] := List.eq_nil_of_length_eq_zero (by omega)
    subst this
    have hpc : st.prevColon = true := by
      rcases hs with h | ⟨c, t, h, _⟩
      · exact h
      · cases h
    obtain ⟨h1, h2⟩ := hnil rfl
    rw [v6Loop, if_neg (by omega), if_pos hpc, if_pos (by simp [h1]), Spec.v6Loop]
    simp [Res.val, Res.ok, V6.core]; omega
  | succ n ih =>
    intro s hn st hp hl hi hz hc hs hnil hd h8
    cases s with
    | nil => exact ih [] (by simp) st hp hl hi hz hc hs hnil hd h8
    | cons c cs =>
      by_cases hi8 : st.pieceIndex = 8
      · rw [v6Loop, if_pos (by omega), hi8]
        rfl
      obtain ⟨k, hk⟩ : ∃ k, 8 - st.pieceIndex = k + 1 := ⟨7 - st.pieceIndex, by omega⟩
      rw [hk, Spec.v6Loop]
      by_cases hcol : c = 58
      · -- a compression
        subst hcol
        have hpc : st.prevColon = true := by
          rcases hs with h | ⟨c, t, h, h'⟩
          · exact h
          · injection h with h _; exact absurd h.symm h'
        rw [v6Loop, if_neg (by omega), if_neg (by simp), if_pos hpc, if_pos rfl]
        cases hcs : st.compress with
        | some v => rfl
        | none =>
          simp only [Option.isSome_none, Bool.false_eq_true, if_false]
          have hkk : 8 - k = st.pieceIndex + 1 := by omega
          have hne : ¬ (cs = [] ∧ st.pieceIndex = 7) := by
            rintro ⟨rfl, h7⟩
            exact h8 hcs ⟨by rw [h7]; decide, .inr ⟨hpc, rfl⟩⟩
          have := ih cs (by simp at hn; omega)
            { st with pieceIndex := st.pieceIndex + 1, compress := some (st.pieceIndex + 1) }
            hp hl (by dsimp only; omega) (fun j hj => hz j (by dsimp only at hj; omega))
            (fun c hc => by injection hc with hc; dsimp only; omega) (.inl hpc)
            (fun e => ⟨rfl, by dsimp only; have : st.pieceIndex ≠ 7 := fun h => hne ⟨e, h⟩; omega⟩)
            (fun x y e => hd (58 :: x) y (by rw [e]; rfl))
            (fun h => by cases h)
          rw [this]
          simp only
          rw [hkk, show 8 - (st.pieceIndex + 1) = k by omega]
      · rw [if_neg hcol]
        obtain ⟨q, s', h1, h2, h3, h4, h5⟩ := v6Hex_spec 4 0 0 (c :: cs)
        rw [h5]
        have hval : q.foldl (fun a c => a * 16 + digitValue c) 0 = numVal 16 q := rfl
        have hidx : 8 - (k + 1) = st.pieceIndex := by omega
        have hkk : 8 - k = st.pieceIndex + 1 := by omega
        have hq58 : 58 ∉ q := by intro h; exact absurd (h2 58 h) (by decide)
        rw [hval, hidx, hkk]
        cases s' with
        | nil =>
          -- last piece
          rw [List.append_nil] at h1
          simp only
          have hqne : q ≠ [] := by rw [← h1]; simp
          rw [h1]
          conv => lhs; rw [← List.append_nil q]
          rw [v6Loop_read env q hq58 hqne [] st (by omega), v6Loop, if_neg (by dsimp only; omega),
            if_neg (by simp), hexPiece h2 hqne h3 _ (by simp [hp]) (by dsimp only; omega)]
          rfl
        | cons x r =>
          by_cases hx46 : x = 46
          · -- IPv4
            subst hx46
            simp only
            have hr58 : 58 ∉ r := hd q r h1
            have hall : 58 ∉ (c :: cs) := by
              rw [h1]; simp [hq58, hr58]
            conv => lhs; rw [← List.append_nil (c :: cs)]
            rw [v6Loop_read env _ hall (by simp) [] st (by omega), v6Loop, if_neg (by dsimp only; omega),
              if_neg (by simp), hp, List.nil_append]
            have hcontains : (c :: cs).contains 46 = true := by
              rw [List.contains_iff_mem, h1]; simp
            unfold v6Piece
            rw [if_neg (by simp), if_neg (by simp only [hcontains]; decide), v6IPv4_val env he _ _ (by simpa using hl)]
            dsimp only
            have hs4 : c :: cs = v4Text 4 (splitOn 46 (c :: cs)) := by
              simp only [v4Text, if_true, joinWith_splitOn]
            by_cases h6 : st.pieceIndex > 6
            · simp only [h6, if_true, ite_self]
            · rw [if_neg h6, if_neg h6]
              by_cases hq0 : 0 + q.length = 0
              · rw [if_pos hq0]
                have : q = [] := List.eq_nil_of_length_eq_zero (by omega)
                subst this
                rw [List.nil_append] at h1
                rw [h1, splitOn_sep, v4PartList]
                have : v4Part [] = none := rfl
                rw [this]
              · rw [if_neg hq0]
                conv => rhs; rw [hs4]
                rw [v4Loop_parts 4 _ _ _ (by omega)
                  (fun x hx h => (mem_splitOn hx 46 h).2 rfl) (fun _ => splitOn_ne_nil _ _),
                  v4Parts_four _ _ (by omega) (hz _ (Nat.le_refl _)) (hz _ (by omega))]
                cases v4PartList (splitOn 46 (c :: cs)) with
                | none => rfl
                | some vs =>
                  match vs with
                  | [] => rfl
                  | [_] => rfl
                  | [_, _] => rfl
                  | [_, _, _] => rfl
                  | [_, _, _, _] => rfl
                  | _ :: _ :: _ :: _ :: _ :: _ => rfl
          · by_cases hx58 : x = 58
            · -- a piece and a colon
              subst hx58
              simp only
              have hqne : q ≠ [] := by
                rintro rfl
                rw [List.nil_append] at h1; injection h1 with h1 _; exact hcol h1
              rw [h1, v6Loop_read env q hq58 hqne _ st (by omega), v6Loop,
                if_neg (by dsimp only; omega), if_neg (by simp), if_neg (by simp),
                hexPiece h2 hqne h3 _ (by simp [hp]) (by dsimp only; omega)]
              simp only [Res.ok]
              by_cases hr : r = []
              · subst hr
                rw [if_pos rfl, v6Loop]
                split
                · rfl
                · rw [if_pos rfl, if_neg]
                  · rfl
                  · simp only [beq_iff_eq]
                    intro h
                    have := hc _ h
                    omega
              · rw [if_neg hr]
                have hlen : r.length ≤ n := by
                  have := congrArg List.length h1
                  simp at this hn; omega
                have := ih r hlen
                  { st with
                    addr := st.addr.set st.pieceIndex (numVal 16 q), pieceIndex := st.pieceIndex + 1,
                    piece := [], prevColon := true } rfl (by simp [hl]) (by dsimp only; omega)
                  (fun j hj => by
                    dsimp only at hj ⊢
                    rw [List.getD_eq_getElem?_getD, List.getElem?_set_ne (by omega),
                      ← List.getD_eq_getElem?_getD]
                    exact hz j (by omega))
                  (fun c hcc => by have := hc c hcc; dsimp only; omega) (.inl rfl)
                  (fun e => absurd e hr)
                  (fun x y e => hd (q ++ 58 :: x) y (by rw [h1, e]; simp))
                  (fun hcn => by
                    intro ⟨h9, h10⟩
                    have hcnt : (c :: cs).count 58 = 1 + r.count 58 := by
                      rw [h1, List.count_append, List.count_cons_self,
                        List.count_eq_zero_of_not_mem hq58]; omega
                    refine h8 hcn ⟨by rw [hcnt]; dsimp only at h9; omega, .inl ?_⟩
                    rcases h10 with ⟨t, h10⟩ | ⟨_, h10⟩
                    · exact ⟨q ++ 58 :: t, by rw [h1, h10]; simp⟩
                    · exact ⟨q, by rw [h1, h10]⟩)
                rw [this]
                simp only
                rw [show 8 - (st.pieceIndex + 1) = k by omega]
            · -- a bad character
              have hbad : ∀ (z : Nat × Nat × Str), z = (numVal 16 q, 0 + q.length, x :: r) →
                  (match z with
                  | (_, length, 46 :: _) =>
                    if length = 0 then none
                    else if st.pieceIndex > 6 then none
                    else (Spec.v4Loop 4 st.addr st.pieceIndex (c :: cs)).map
                      fun r => (r.1, r.2, st.compress)
                  | (value, _, []) => some (st.addr.set st.pieceIndex value, st.pieceIndex + 1, st.compress)
                  | (value, _, 58 :: rest) =>
                    if rest = [] then none
                    else Spec.v6Loop k (st.addr.set st.pieceIndex value) st.compress rest
                  | _ => none) = none := by
                rintro z rfl
                split
                · rename_i h; injection h with _ h; injection h with _ h; injection h with h _
                  exact absurd h hx46
                · rename_i h; injection h with _ h; injection h with _ h; cases h
                · rename_i h; injection h with _ h; injection h with _ h; injection h with h _
                  exact absurd h hx58
                · rfl
              refine Eq.trans ?_ (hbad _ rfl).symm
              -- the whole piece
              have hsplit : ∃ w rest, r = w ++ rest ∧ 58 ∉ w ∧ (rest = [] ∨ ∃ t, rest = 58 :: t) := by
                refine ⟨r.takeWhile (· ≠ 58), r.dropWhile (· ≠ 58), (List.takeWhile_append_dropWhile).symm, ?_, ?_⟩
                · intro h
                  have := List.all_eq_true.1 (List.all_takeWhile (p := (· ≠ 58)) (l := r)) 58 h
                  simp at this
                · cases hdw : r.dropWhile (· ≠ 58) with
                  | nil => exact .inl rfl
                  | cons y t =>
                    right
                    have := List.head?_dropWhile_not (p := (· ≠ 58)) r
                    rw [hdw] at this
                    simp at this
                    exact ⟨t, by rw [this]⟩
              obtain ⟨w, rest, h6, h7, h9⟩ := hsplit
              have hpiece : 58 ∉ q ++ x :: w := by
                simp only [List.mem_append, List.mem_cons, not_or]
                exact ⟨hq58, Ne.symm hx58, h7⟩
              rw [show c :: cs = (q ++ x :: w) ++ rest by rw [h1, h6]; simp,
                v6Loop_read env _ hpiece (by simp) rest st (by omega), v6Loop_piece_none env _ rfl rest h9]
              · rfl
              · intro b
                refine v6Piece_bad env he _ b hl q w x (by simp [hp]) h2 ?_ hx46
                rcases h4 with h4 | h4
                · exact .inl h4
                · exact .inr (h4 x r rfl)

theorem v6Swap_agree (compress : Nat) : ∀ (swaps i : Nat) (a : List Nat), a.length = 8 →
    compress + swaps ≤ 8 → i < 8 → v6Swap compress swaps i a = some (Spec.v6Swap compress swaps i a) := by
  intro swaps
  induction swaps with
  | zero => intro i a _ _ _; rfl
  | succ k ih =>
    intro i a hl hc hi
    rw [v6Swap]
    cases i with
    | zero => rfl
    | succ i =>
      rw [if_neg (by omega), if_pos (by simp [hl]; omega), Nat.add_sub_cancel,
        ih i _ (by simp [hl]) (by omega) (by omega)]
      rfl

/-- the standard's last steps -/
def specFinish (r : Option (List Nat × Nat × Option Nat)) : Option (List Nat) :=
  match r with
  | none => none
  | some (addr, pieceIndex, some compress) => some (Spec.v6Swap compress (pieceIndex - compress) 7 addr)
  | some (addr, pieceIndex, none) => if pieceIndex = 8 then some addr else none

theorem finish_agree (env : Env) (t : Str) (st : V6) (hst : st.Inv) :
    (v6Run env t st).val = specFinish ((v6Loop env t st).val.map V6.core) := by
  have hpost := v6Loop_post env t st hst
  unfold v6Run
  rcases hr : v6Loop env t st with ⟨r, log⟩
  rw [hr] at hpost
  cases r with
  | error e => rfl
  | ok st' =>
    dsimp only at hpost ⊢
    simp only [Res.val, Option.map_some, V6.core]
    unfold v6Finish specFinish
    cases hc : st'.compress with
    | some c =>
      have := hpost.comp c hc
      have := hpost.idx
      dsimp only
      rw [v6Swap_agree c _ 7 _ hpost.len (by omega) (by omega)]
      rfl
    | none =>
      dsimp only
      by_cases h8 : st'.pieceIndex = 8
      · rw [if_neg (by simp [h8]), if_pos h8]; rfl
      · rw [if_pos h8, if_neg h8]; rfl

theorem ipv6Parse_agree (env : Env) (he : EnvOK env) (s : Str) (h3 : ∀ t, s ≠ u!":::" ++ t)
    (hd : NoDotColon s) (h8 : NoEighth 0 false s) : (ipv6Parse env s).val = Spec.ipv6Parse s := by
  have hz : ∀ v ∈ [0, 0, 0, 0, 0, 0, 0, 0], v < 65536 := by simp
  have hi0 : ({} : V6).Inv := ⟨rfl, hz, by decide, by intro c hc; cases hc⟩
  have hi1 : ({ pieceIndex := 1, compress := some 1 } : V6).Inv :=
    ⟨rfl, hz, by decide, by intro c hc; injection hc with hc; dsimp only; omega⟩
  have hz' : ∀ j, ([0, 0, 0, 0, 0, 0, 0, 0] : List Nat).getD j 0 = 0 := by
    intro j
    by_cases hj : j < 8
    · have : ∀ j, j < 8 → ([0, 0, 0, 0, 0, 0, 0, 0] : List Nat).getD j 0 = 0 := by decide
      exact this j hj
    · rw [List.getD_eq_getElem?_getD, List.getElem?_eq_none (by simp; omega)]; rfl
  cases s with
  | nil => rfl
  | cons c t =>
    by_cases hc : c = 58
    · subst hc
      cases t with
      | nil => rfl
      | cons d u =>
        by_cases hd58 : d = 58
        · subst hd58
          cases u with
          | nil => rfl
          | cons x xs =>
            have hx : x ≠ 58 := fun h => h3 xs (by rw [h]; rfl)
            rw [ipv6Parse_colons, finish_agree env _ _ hi1,
              v6Loop_agree env he _ _ (Nat.le_refl _) _ rfl rfl (by decide) (fun j _ => hz' j)
                (fun c hc => by injection hc with hc; dsimp only; omega) (.inr ⟨x, xs, rfl, hx⟩)
                (fun h => by cases h) (fun a b e => hd (58 :: 58 :: a) b (by rw [e]; rfl))
                (fun h => by cases h)]
            rfl
        · rw [ipv6Parse_onecolon env hd58]
          unfold Spec.ipv6Parse
          split
          · rename_i h; injection h with _ h; injection h with h _; exact absurd h hd58
          · rfl
          · rename_i h; exact absurd rfl (h _)
    · rw [ipv6Parse_nocolon env t hc, finish_agree env _ _ hi0,
        v6Loop_agree env he _ _ (Nat.le_refl _) _ rfl rfl (by decide) (fun j _ => hz' j)
          (fun c hc => by cases hc) (.inr ⟨c, t, rfl, hc⟩) (fun h => by cases h) hd (fun _ => h8)]
      unfold Spec.ipv6Parse
      split
      · rename_i h; injection h with h _; exact absurd h hc
      · rename_i h; injection h with h _; exact absurd h hc
      · rfl

/-! ### Texts of serializations -/

theorem hexText_mem {v c : Nat} (h : c ∈ Spec.hexText v) : isHex c = true := by
  rw [← natHex_eq] at h; exact isHex_of_natHex h

theorem hexColons_mem (vs : List Nat) : ∀ c ∈ Spec.hexColons vs, isHex c = true ∨ c = 58 := by
  induction vs with
  | nil => simp [Spec.hexColons]
  | cons v vs ih =>
    cases vs with
    | nil => intro c hc; exact .inl (hexText_mem hc)
    | cons w ws =>
      intro c hc
      simp only [Spec.hexColons, List.mem_append, List.mem_singleton] at hc
      rcases hc with (hc | hc) | hc
      · exact .inl (hexText_mem hc)
      · exact .inr hc
      · exact ih c hc

theorem hexColons_count (vs : List Nat) : (Spec.hexColons vs).count 58 = vs.length - 1 := by
  induction vs with
  | nil => rfl
  | cons v vs ih =>
    have hv : (Spec.hexText v).count 58 = 0 :=
      List.count_eq_zero_of_not_mem fun h => absurd (hexText_mem h) (by decide)
    cases vs with
    | nil => simpa [Spec.hexColons] using hv
    | cons w ws =>
      simp only [Spec.hexColons, List.count_append, hv, ih]
      simp; omega

theorem ipv6Serialize_form {a : List Nat} (h : IsV6 a) :
    (∃ i n, Spec.FirstLongestZeroRun a i n ∧
      ipv6Serialize a = Spec.hexColons (a.take i) ++ u!"::" ++ Spec.hexColons (a.drop (i + n))) ∨
    ipv6Serialize a = Spec.hexColons a := by
  cases hc : v6FindCompress a 0 none none 1 0 with
  | none => exact .inr (ipv6Serialize_plain h.1 (v6FindCompress_none h.1 hc))
  | some c =>
    obtain ⟨n, hn⟩ := v6FindCompress_some h.1 hc
    exact .inl ⟨c, n, hn, ipv6Serialize_run h.1 hn⟩

theorem ipv6Serialize_mem {a : List Nat} (h : IsV6 a) : ∀ c ∈ ipv6Serialize a, isHex c = true ∨ c = 58 := by
  intro c hc
  rcases ipv6Serialize_form h with ⟨i, n, _, e⟩ | e
  · rw [e] at hc
    simp only [List.mem_append, List.mem_cons, List.not_mem_nil, or_false] at hc
    rcases hc with (hc | hc | hc) | hc
    · exact hexColons_mem _ c hc
    · exact .inr hc
    · exact .inr hc
    · exact hexColons_mem _ c hc
  · rw [e] at hc; exact hexColons_mem _ c hc

theorem ipv6Serialize_count {a : List Nat} (h : IsV6 a) : (ipv6Serialize a).count 58 ≤ 7 := by
  rcases ipv6Serialize_form h with ⟨i, n, hr, e⟩ | e
  · have h1 := hr.1
    have h2 := hr.2.1.1
    have h3 := h.1
    rw [e]
    simp only [List.count_append, hexColons_count, List.length_take, List.length_drop]
    have : List.count 58 ([58, 58] : List Nat) = 2 := rfl
    rw [this]
    omega
  · rw [e, hexColons_count, h.1]; omega

theorem hexColons_no_colon {vs : List Nat} (hv : ∀ v ∈ vs, v < 65536) (t : Str) :
    Spec.hexColons vs ≠ 58 :: t := by
  cases vs with
  | nil => simp [Spec.hexColons]
  | cons v vs =>
    obtain ⟨c, u, e, hc⟩ := hexColons_head (hv v (by simp)) vs
    rw [e]
    intro h
    injection h with h _
    subst h
    exact absurd hc (by decide)

theorem ipv6Serialize_standard {a : List Nat} (h : IsV6 a) :
    Spec.ipv6Parse (ipv6Serialize a) = some a := by
  have he : EnvOK exEnv := .inr (by decide)
  rw [← ipv6Parse_agree _ he, ipv6_round_trip _ h]
  · rfl
  · intro t ht
    rcases ipv6Serialize_form h with ⟨i, n, _, e⟩ | e
    · rw [e] at ht
      cases hpre : a.take i with
      | nil =>
        rw [hpre] at ht
        have : Spec.hexColons (a.drop (i + n)) = 58 :: t := by simpa [Spec.hexColons] using ht
        exact hexColons_no_colon (fun v hv => h.2 v (List.mem_of_mem_drop hv)) t this
      | cons v vs =>
        have hv : v < 65536 := h.2 v (List.mem_of_mem_take (i := i) (by rw [hpre]; simp))
        obtain ⟨c, u, e', hc⟩ := hexColons_head hv vs
        rw [hpre, e'] at ht
        injection ht with ht _
        subst ht
        exact absurd hc (by decide)
    · rw [e] at ht
      exact hexColons_no_colon h.2 (u!"::" ++ t) ht
  · intro x y e hy
    have := ipv6Serialize_mem h 46 (by rw [e]; simp)
    rcases this with h | h
    · exact absurd h (by decide)
    · omega
  · intro ⟨h1, _⟩
    have := ipv6Serialize_count h
    omega

/-- an IPv4 part beyond the digit limit -/
theorem ipv6Parse_long (env : Env) (h : 0 < env.maxStrDigits) :
    ipv6Parse env (u!"::" ++ (List.replicate (env.maxStrDigits + 1) c!"1" ++ u!".1.1.1")) =
      .err .valueError := by
  show ipv6Parse env (58 :: 58 :: (List.replicate (env.maxStrDigits + 1) 49 ++ u!".1.1.1")) = _
  rw [ipv6Parse_colons]
  have hm : ∀ c ∈ List.replicate (env.maxStrDigits + 1) 49, c = 49 := fun c hc => (List.mem_replicate.1 hc).2
  have h58 : 58 ∉ List.replicate (env.maxStrDigits + 1) 49 ++ u!".1.1.1" := by
    intro hc
    rcases List.mem_append.1 hc with hc | hc
    · have := hm _ hc; omega
    · exact absurd hc (by decide)
  have h46 : 46 ∉ List.replicate (env.maxStrDigits + 1) 49 := by
    intro hc; have := hm _ hc; omega
  have hsplit : splitOn 46 (List.replicate (env.maxStrDigits + 1) 49 ++ u!".1.1.1") =
      List.replicate (env.maxStrDigits + 1) 49 :: [[49], [49], [49]] := by
    rw [splitOn_append h46]; rfl
  have hv : v6Loop env (List.replicate (env.maxStrDigits + 1) 49 ++ u!".1.1.1")
      { pieceIndex := 1, compress := some 1 } = .err .valueError := by
    conv => lhs; rw [← List.append_nil (List.replicate (env.maxStrDigits + 1) 49 ++ u!".1.1.1")]
    rw [v6Loop_read env _ h58 (by simp) [] _ (by decide), v6Loop, if_neg (by simp), if_neg (by simp)]
    unfold v6Piece
    rw [if_neg (by simp), if_neg (by simp)]
    unfold v6IPv4
    rw [if_neg (by simp)]
    simp only [List.nil_append, hsplit]
    have hdig : ∀ c ∈ List.replicate (env.maxStrDigits + 1) 49, isDigit c = true := by
      intro c hc; rw [hm c hc]; rfl
    rw [if_neg]
    · have : pyInt env 10 (List.replicate (env.maxStrDigits + 1) 49) = none :=
        pyInt_long env (digits_numeral hdig) (by simp) (by simp; omega)
      rw [ipv4PartValues, this]
    · have hb : badIPv4Part (List.replicate (env.maxStrDigits + 1) 49) = false := by
        unfold badIPv4Part
        simp only [List.replicate_succ, List.isEmpty_cons, Bool.false_or, List.headD_cons]
        simp only [Bool.or_eq_false_iff, List.any_eq_false, Bool.not_eq_true', Bool.not_eq_false]
        exact ⟨by simpa [List.replicate_succ] using hdig, by simp⟩
      have h1 : badIPv4Part [49] = false := rfl
      simp [hb, h1]
  unfold v6Run
  rw [hv]; rfl

end Urlstd
