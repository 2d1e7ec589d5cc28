/-
Lemmas on numerals: `natDec`, `natHex` and CPython's `int()`.
-/
import Verif.Lemmas.Ascii
import Verif.Py
import Mathlib.Tactic.ByContra

namespace Urlstd

/-- value of a numeral -/
def numVal (base : Nat) (s : Str) : Nat := s.foldl (fun a c => a * base + digitValue c) 0

theorem foldl_num (base : Nat) (s : Str) (acc : Nat) :
    s.foldl (fun a c => a * base + digitValue c) acc = acc * base ^ s.length + numVal base s := by
  unfold numVal
  induction s generalizing acc with
  | nil => simp
  | cons c cs ih =>
    rw [List.foldl_cons, ih, List.foldl_cons, ih (0 * base + digitValue c), List.length_cons,
      Nat.pow_succ, Nat.add_mul]
    simp only [Nat.zero_mul, Nat.zero_add]
    rw [Nat.mul_assoc, Nat.mul_comm base, Nat.add_assoc]

theorem numVal_nil (base : Nat) : numVal base [] = 0 := rfl

theorem numVal_cons (base c : Nat) (s : Str) :
    numVal base (c :: s) = digitValue c * base ^ s.length + numVal base s := by
  conv => lhs; unfold numVal
  rw [List.foldl_cons, foldl_num]; simp

theorem numVal_snoc (base c : Nat) (s : Str) :
    numVal base (s ++ [c]) = numVal base s * base + digitValue c := by
  unfold numVal
  rw [List.foldl_append]; rfl

/-! ### `scanDigits` -/

/-- digits of a base -/
def IsNumeral (base : Nat) (s : Str) : Prop := ∀ c ∈ s, digitValue c < base

theorem digitValue_underscore : digitValue 95 = 37 := rfl

theorem scanDigits_numeral {base : Nat} (hb : base ≤ 36) (s : Str) (h : IsNumeral base s) (us : Bool)
    (acc k : Nat) (hk : s ≠ [] ∨ (us = false ∧ k ≠ 0)) :
    scanDigits base s us acc k =
      some (s.foldl (fun a c => a * base + digitValue c) acc, k + s.length, []) := by
  induction s generalizing us acc k with
  | nil =>
    rcases hk with hk | hk
    · exact absurd rfl hk
    · simp [scanDigits, hk.1, hk.2]
  | cons c cs ih =>
    have hc := h c (by simp)
    have hne : c ≠ 95 := by
      rintro rfl
      rw [digitValue_underscore] at hc; omega
    rw [scanDigits, if_neg hne, if_pos hc, ih (fun d hd => h d (by simp [hd])) _ _ _ (.inr ⟨rfl, by omega⟩)]
    simp only [List.foldl_cons, List.length_cons]
    rw [show k + 1 + cs.length = k + (cs.length + 1) by omega]

theorem digitValue_digit {c : Nat} (h : isDigit c = true) : digitValue c = c - 48 := by
  simp [digitValue, h]

theorem isDigit_iff {c : Nat} : isDigit c = true ↔ 48 ≤ c ∧ c ≤ 57 := by
  simp [isDigit]

theorem isHex_iff {c : Nat} : isHex c = true ↔
    (48 ≤ c ∧ c ≤ 57) ∨ (65 ≤ c ∧ c ≤ 70) ∨ (97 ≤ c ∧ c ≤ 102) := by
  simp only [isHex, isDigit, Bool.or_eq_true, Bool.and_eq_true, decide_eq_true_eq]; omega

theorem digitValue_lt10 {c : Nat} : digitValue c < 10 ↔ isDigit c = true := by
  unfold digitValue
  by_cases h : isDigit c = true
  · have h' := isDigit_iff.1 h
    simp only [h, if_true, iff_true]; omega
  · simp only [h]
    simp only [isDigit_iff] at h
    simp only [Bool.and_eq_true, decide_eq_true_eq]
    constructor
    · intro h'
      simp only [Bool.false_eq_true, if_false] at h'
      split at h' <;> (try split at h') <;> omega
    · intro h'; simp at h'

theorem digitValue_lt16 {c : Nat} : digitValue c < 16 ↔ isHex c = true := by
  unfold digitValue
  simp only [isDigit, isHex_iff, Bool.and_eq_true, decide_eq_true_eq]
  split
  · omega
  · split
    · omega
    · split <;> omega

theorem digitValue_lt8 {c : Nat} : digitValue c < 8 ↔ 48 ≤ c ∧ c ≤ 55 := by
  unfold digitValue
  simp only [isDigit, Bool.and_eq_true, decide_eq_true_eq]
  split
  · omega
  · split
    · omega
    · split <;> omega

theorem digitValue_hexVal {c : Nat} (h : isHex c = true) : digitValue c = hexVal c := by
  rw [isHex_iff] at h
  unfold digitValue hexVal
  simp only [isDigit, Bool.and_eq_true, decide_eq_true_eq]
  split
  · rfl
  · by_cases h2 : 65 ≤ c ∧ c ≤ 70
    · rw [if_pos (by omega), if_pos h2]
    · rw [if_neg (by omega), if_pos (by omega), if_neg h2]

theorem numVal_lt {base : Nat} (s : Str) (h : IsNumeral base s) : numVal base s < base ^ s.length := by
  induction s with
  | nil => simp [numVal_nil]
  | cons c cs ih =>
    have hc := h c (by simp)
    have ih := ih (fun d hd => h d (by simp [hd]))
    rw [numVal_cons, List.length_cons, Nat.pow_succ]
    have : (digitValue c + 1) * base ^ cs.length ≤ base * base ^ cs.length :=
      Nat.mul_le_mul_right _ hc
    rw [Nat.add_mul, Nat.one_mul, Nat.mul_comm base] at this
    omega

/-! ### `int()` -/

theorem all_ascii {s : Str} (h : ∀ c ∈ s, c < 128) : s.all (· < 128) = true := by
  simpa using h

theorem intTransform_ascii (env : Env) {s : Str} (h : ∀ c ∈ s, c < 128) : intTransform env s = s := by
  simp only [intTransform, all_ascii h, if_true]

theorem digitValue_ascii {c : Nat} (h : digitValue c < 37) : 48 ≤ c ∧ c < 128 := by
  unfold digitValue at h
  simp only [isDigit, Bool.and_eq_true, decide_eq_true_eq] at h
  split at h
  · omega
  · split at h
    · omega
    · split at h <;> omega

theorem isPySpace_digit {c : Nat} (h : digitValue c < 37) : isPySpace c = false := by
  have := digitValue_ascii h
  simp [isPySpace]; omega

theorem dropWhile_head {p : Nat → Bool} {c : Nat} {s : Str} (h : p c = false) :
    (c :: s).dropWhile p = c :: s := by
  simp [List.dropWhile, h]

theorem IsNumeral.ascii {base : Nat} (hb : base ≤ 36) {s : Str} (h : IsNumeral base s) :
    ∀ c ∈ s, c < 128 := fun c hc => (digitValue_ascii (by have := h c hc; omega)).2

theorem dropRadixPrefix_numeral {base : Nat} (hb : base ≤ 16) {s : Str} (h : IsNumeral base s) :
    dropRadixPrefix base s = s := by
  unfold dropRadixPrefix
  split
  · rename_i x cs
    rw [if_neg]
    intro hc
    have hx := h x (by simp)
    simp only [Bool.or_eq_true, Bool.and_eq_true, beq_iff_eq] at hc
    rcases hc with ⟨h1, h2 | h2⟩ | ⟨h1, h2 | h2⟩ <;> subst h2 <;> subst h1 <;>
      exact absurd hx (by decide)
  · rfl

/-- `int(text, base)` on a plain numeral. -/
theorem pyInt_numeral (env : Env) {base : Nat} (hb : base ≤ 16) {s : Str} (h : IsNumeral base s)
    (hne : s ≠ []) (hlen : base = 10 → env.maxStrDigits = 0 ∨ s.length ≤ env.maxStrDigits) :
    pyInt env base s = some (Int.ofNat (numVal base s)) := by
  cases s with
  | nil => exact absurd rfl hne
  | cons c cs =>
    have hc := h c (by simp)
    have hca := digitValue_ascii (c := c) (by omega)
    unfold pyInt
    rw [intTransform_ascii env (h.ascii (by omega)), dropWhile_head (isPySpace_digit (by omega))]
    have : splitSign (c :: cs) = (false, c :: cs) := by
      unfold splitSign
      split
      · rename_i heq; injection heq with h1 h2; omega
      · rename_i heq; injection heq with h1 h2; omega
      · rfl
    simp only [this]
    rw [dropRadixPrefix_numeral hb h, scanDigits_numeral (by omega) _ h _ _ _ (.inl hne)]
    simp only [List.dropWhile_nil, List.isEmpty_nil, Bool.not_true, Bool.false_eq_true, if_false]
    rw [if_neg]
    · rfl
    · simp only [Bool.and_eq_true, beq_iff_eq, decide_eq_true_eq, Nat.zero_add]
      intro ⟨⟨h1, h2⟩, h3⟩
      have := hlen h1
      omega

/-- the digit limit -/
theorem pyInt_long (env : Env) {s : Str} (h : IsNumeral 10 s) (hne : s ≠ [])
    (hlen : 0 < env.maxStrDigits ∧ env.maxStrDigits < s.length) : pyInt env 10 s = none := by
  cases s with
  | nil => exact absurd rfl hne
  | cons c cs =>
    have hc := h c (by simp)
    have hca := digitValue_ascii (c := c) (by omega)
    unfold pyInt
    rw [intTransform_ascii env (h.ascii (by omega)), dropWhile_head (isPySpace_digit (by omega))]
    have : splitSign (c :: cs) = (false, c :: cs) := by
      unfold splitSign
      split
      · rename_i heq; injection heq with h1 h2; omega
      · rename_i heq; injection heq with h1 h2; omega
      · rfl
    simp only [this]
    rw [dropRadixPrefix_numeral (by omega) h, scanDigits_numeral (by omega) _ h _ _ _ (.inl hne)]
    simp only [List.dropWhile_nil, List.isEmpty_nil, Bool.not_true, Bool.false_eq_true, if_false]
    rw [if_pos]
    simp only [Bool.and_eq_true, beq_iff_eq, decide_eq_true_eq, Nat.zero_add]
    exact ⟨⟨trivial, hlen.1⟩, hlen.2⟩

/-! ### Numbers to text -/

theorem toDigitsAux_mem {base : Nat} (hb : 0 < base) (digit : Nat → Nat) (fuel n : Nat) :
    ∀ c ∈ toDigitsAux base digit fuel n, ∃ d, d < base ∧ c = digit d := by
  induction fuel generalizing n with
  | zero =>
    intro c hc
    simp [toDigitsAux] at hc
    exact ⟨n % base, Nat.mod_lt _ hb, hc⟩
  | succ fuel ih =>
    intro c hc
    rw [toDigitsAux] at hc
    split at hc
    · simp at hc; exact ⟨n, by assumption, hc⟩
    · rw [List.mem_append, List.mem_singleton] at hc
      rcases hc with hc | hc
      · exact ih _ c hc
      · exact ⟨n % base, Nat.mod_lt _ hb, hc⟩

theorem toDigitsAux_val {base : Nat} (hb : 2 ≤ base) {digit : Nat → Nat}
    (hd : ∀ d, d < base → digitValue (digit d) = d) (fuel n : Nat) (hn : n ≤ fuel) :
    numVal base (toDigitsAux base digit fuel n) = n := by
  induction fuel generalizing n with
  | zero =>
    have : n = 0 := by omega
    subst this
    simp [toDigitsAux, numVal, hd 0 (by omega)]
  | succ fuel ih =>
    rw [toDigitsAux]
    split
    · rename_i h; simp [numVal, hd n h]
    · rename_i h
      have hlt : n / base < n := Nat.div_lt_self (by omega) (by omega)
      rw [numVal_snoc, ih _ (by omega), hd _ (Nat.mod_lt _ (by omega))]
      rw [Nat.mul_comm]; exact Nat.div_add_mod n base

theorem toDigitsAux_ne_nil (base : Nat) (digit : Nat → Nat) (fuel n : Nat) :
    toDigitsAux base digit fuel n ≠ [] := by
  cases fuel with
  | zero => simp [toDigitsAux]
  | succ f => rw [toDigitsAux]; split <;> simp

/-- the first digit is not zero, unless the number is -/
theorem toDigitsAux_head {base : Nat} (hb : 2 ≤ base) (digit : Nat → Nat) (fuel n : Nat) (hn : n ≤ fuel)
    (h0 : n ≠ 0) : ∃ d t, toDigitsAux base digit fuel n = digit d :: t ∧ 0 < d ∧ d < base := by
  induction fuel generalizing n with
  | zero => omega
  | succ fuel ih =>
    rw [toDigitsAux]
    split
    · exact ⟨n, [], rfl, by omega, by assumption⟩
    · rename_i h
      have hlt : n / base < n := Nat.div_lt_self (by omega) (by omega)
      have hpos : 0 < n / base := Nat.div_pos (by omega) (by omega)
      obtain ⟨d, t, e, h1, h2⟩ := ih (n / base) (by omega) (by omega)
      exact ⟨d, t ++ [digit (n % base)], by rw [e]; rfl, h1, h2⟩

theorem toDigitsAux_length {base : Nat} (hb : 2 ≤ base) (digit : Nat → Nat) (fuel n k : Nat)
    (hn : n < base ^ k) (hk : 1 ≤ k) : (toDigitsAux base digit fuel n).length ≤ k := by
  induction fuel generalizing n k with
  | zero => simp [toDigitsAux]; omega
  | succ fuel ih =>
    rw [toDigitsAux]
    split
    · simp; omega
    · rename_i h
      cases k with
      | zero => omega
      | succ k =>
        cases k with
        | zero => simp at hn; omega
        | succ k =>
          have : n / base < base ^ (k + 1) := by
            rw [Nat.div_lt_iff_lt_mul (by omega), ← Nat.pow_succ]; exact hn
          have := ih _ (k + 1) this (by omega)
          simp only [List.length_append, List.length_singleton]; omega

theorem digitValue_dec (d : Nat) (h : d < 10) : digitValue (48 + d) = d := by
  rw [digitValue_digit (by rw [isDigit_iff]; omega)]; omega

theorem digitValue_hexLower (d : Nat) (h : d < 16) : digitValue (hexDigitLower d) = d := by
  unfold hexDigitLower digitValue
  simp only [isDigit, Bool.and_eq_true, decide_eq_true_eq]
  split
  · rw [if_pos (by omega)]; omega
  · rw [if_neg (by omega), if_neg (by omega), if_pos (by omega)]; omega

theorem natDec_digits (n : Nat) : ∀ c ∈ natDec n, isDigit c = true := by
  intro c hc
  obtain ⟨d, hd, rfl⟩ := toDigitsAux_mem (by omega) _ n n c hc
  rw [isDigit_iff]; omega

theorem natDec_val (n : Nat) : numVal 10 (natDec n) = n :=
  toDigitsAux_val (by omega) digitValue_dec n n (Nat.le_refl n)

theorem natDec_ne_nil (n : Nat) : natDec n ≠ [] := toDigitsAux_ne_nil _ _ _ _

theorem natDec_numeral (n : Nat) : IsNumeral 10 (natDec n) := fun c hc =>
  digitValue_lt10.2 (natDec_digits n c hc)

theorem natDec_injective {m n : Nat} (h : natDec m = natDec n) : m = n := by
  rw [← natDec_val m, h, natDec_val]

theorem natDec_zero : natDec 0 = u!"0" := rfl

theorem natDec_head {n : Nat} (h : n ≠ 0) : ∃ d t, natDec n = (48 + d) :: t ∧ 0 < d ∧ d < 10 :=
  toDigitsAux_head (by omega) _ n n (Nat.le_refl n) h

theorem natDec_length {n k : Nat} (h : n < 10 ^ k) (hk : 1 ≤ k) : (natDec n).length ≤ k :=
  toDigitsAux_length (by omega) _ n n k h hk

theorem natHex_val (n : Nat) : numVal 16 (natHex n) = n :=
  toDigitsAux_val (by omega) digitValue_hexLower n n (Nat.le_refl n)

theorem natHex_ne_nil (n : Nat) : natHex n ≠ [] := toDigitsAux_ne_nil _ _ _ _

theorem natHex_numeral (n : Nat) : IsNumeral 16 (natHex n) := by
  intro c hc
  obtain ⟨d, hd, rfl⟩ := toDigitsAux_mem (by omega) _ n n c hc
  rw [digitValue_hexLower d hd]; exact hd

theorem natHex_length {n k : Nat} (h : n < 16 ^ k) (hk : 1 ≤ k) : (natHex n).length ≤ k :=
  toDigitsAux_length (by omega) _ n n k h hk

theorem natHex_injective {m n : Nat} (h : natHex m = natHex n) : m = n := by
  rw [← natHex_val m, h, natHex_val]

/-- lower-case hex digits only -/
theorem natHex_mem (n : Nat) : ∀ c ∈ natHex n, (48 ≤ c ∧ c ≤ 57) ∨ (97 ≤ c ∧ c ≤ 102) := by
  intro c hc
  obtain ⟨d, hd, rfl⟩ := toDigitsAux_mem (by omega) _ n n c hc
  unfold hexDigitLower; split <;> omega

/-- no leading zero -/
theorem natHex_head {n : Nat} (h : n ≠ 0) :
    ∃ d t, natHex n = hexDigitLower d :: t ∧ 0 < d ∧ d < 16 :=
  toDigitsAux_head (by omega) _ n n (Nat.le_refl n) h

/-- A digit string without a leading zero is the numeral of its value. -/
theorem natDec_numVal {s : Str} (h : ∀ c ∈ s, isDigit c = true) (hne : s ≠ [])
    (hz : s.length ≥ 2 → s.headD 0 ≠ 48) : natDec (numVal 10 s) = s := by
  suffices H : ∀ (s : Str), (∀ c ∈ s, isDigit c = true) → s ≠ [] →
      (s.length ≥ 2 → s.headD 0 ≠ 48) → ∀ fuel, numVal 10 s ≤ fuel →
      toDigitsAux 10 (fun d => 48 + d) fuel (numVal 10 s) = s from H s h hne hz _ (Nat.le_refl _)
  clear h hne hz s
  intro s
  induction hl : s.length generalizing s with
  | zero => intro _ hne; exact absurd (List.length_eq_zero_iff.1 hl) hne
  | succ n ih =>
    intro h hne hz fuel hf
    rcases List.eq_nil_or_concat s with rfl | ⟨s', c, rfl⟩
    · exact absurd rfl hne
    · simp only [List.concat_eq_append] at *
      have hc : isDigit c = true := h c (by simp)
      have hcv := digitValue_digit hc
      rw [isDigit_iff] at hc
      rw [numVal_snoc] at hf ⊢
      cases s' with
      | nil =>
        simp only [numVal_nil, Nat.zero_mul, Nat.zero_add, List.nil_append] at *
        cases fuel with
        | zero =>
          simp only [toDigitsAux]
          rw [show 48 + digitValue c % 10 = c by omega]
        | succ f =>
          simp only [toDigitsAux]
          rw [if_pos (by omega), show 48 + digitValue c = c by omega]
      | cons a t =>
        have ha : isDigit a = true := h a (by simp)
        have hav := digitValue_digit ha
        rw [isDigit_iff] at ha
        have ha0 : a ≠ 48 := by
          have := hz (by simp at hl; omega)
          simpa using this
        have hpos : 0 < numVal 10 (a :: t) := by
          rw [numVal_cons]
          have : 0 < digitValue a * 10 ^ t.length := Nat.mul_pos (by omega) (Nat.pow_pos (by omega))
          omega
        cases fuel with
        | zero => omega
        | succ f =>
          rw [toDigitsAux, if_neg (by omega)]
          rw [show (numVal 10 (a :: t) * 10 + digitValue c) / 10 = numVal 10 (a :: t) by omega,
            show (numVal 10 (a :: t) * 10 + digitValue c) % 10 = digitValue c by omega]
          rw [ih (a :: t) (by simp at hl ⊢; omega) (fun d hd => h d (by
              rw [List.mem_append]; exact .inl hd)) (by simp)
            (fun _ => by simpa using ha0) f (by omega)]
          rw [show 48 + digitValue c = c by omega]

end Urlstd
