/-
Lemmas on IPv4 numbers, parsing and serialization.
-/
import Verif.Host
import Verif.Spec.Host
import Verif.Lemmas.Num
import Verif.Lemmas.Str

namespace Urlstd

/-- What CPython guarantees about the integer digit limit: off, or at least 640. -/
def EnvOK (env : Env) : Prop := env.maxStrDigits = 0 ∨ 640 ≤ env.maxStrDigits

/-! ### Splitting -/

theorem strictlySplit_eq (sep : Nat) (s : Str) : ∀ (acc h : Str) (t : List Str),
    splitOn sep s = h :: t → Spec.strictlySplit sep acc s = (acc ++ h) :: t := by
  induction s with
  | nil => intro acc h t e; simp [splitOn] at e; simp [Spec.strictlySplit, e]
  | cons c cs ih =>
    intro acc h t e
    obtain ⟨h', t', e'⟩ := splitOn_cons sep cs
    by_cases hc : c = sep
    · subst hc
      rw [splitOn_sep] at e
      injection e with e1 e2
      rw [Spec.strictlySplit, if_pos rfl, ih [] h' t' e', ← e1, ← e2, e']
      simp
    · rw [splitOn_other hc e'] at e
      injection e with e1 e2
      rw [Spec.strictlySplit, if_neg hc, ih _ h' t' e', ← e1, ← e2]
      simp

theorem strictlySplit_splitOn (sep : Nat) (s : Str) : Spec.strictlySplit sep [] s = splitOn sep s := by
  obtain ⟨h, t, e⟩ := splitOn_cons sep s
  rw [strictlySplit_eq sep s [] h t e, e]; rfl

/-- the parts after dropping an empty last one, as the code computes them -/
def partsOf (address : Str) : List Str :=
  let parts := splitOn c!"." address
  if (parts.getLastD []).isEmpty && decide (parts.length > 1) then parts.dropLast else parts

theorem getLastD_eq {α : Type} (l : List α) (d : α) (h : l ≠ []) : l.getLastD d = l.getLast h := by
  rw [List.getLastD_eq_getLast?, List.getLast?_eq_some_getLast h]; rfl

theorem partsOf_eq (s : Str) : partsOf s = Spec.ipv4Parts s := by
  unfold partsOf Spec.ipv4Parts
  rw [strictlySplit_splitOn]
  have hne := splitOn_ne_nil 46 s
  simp only [getLastD_eq _ [] hne, List.getLast?_eq_some_getLast hne, Bool.and_eq_true,
    List.isEmpty_iff, decide_eq_true_eq, Option.some.injEq]

theorem partsOf_ne_nil (s : Str) : partsOf s ≠ [] := by
  unfold partsOf
  dsimp only
  split
  · rename_i h
    simp only [Bool.and_eq_true, decide_eq_true_eq] at h
    intro e
    have := congrArg List.length e
    simp at this
    omega
  · exact splitOn_ne_nil _ _

theorem mem_partsOf {s p : Str} (hp : p ∈ partsOf s) : p ∈ splitOn 46 s := by
  unfold partsOf at hp
  dsimp only at hp
  split at hp
  · exact List.dropLast_subset _ hp
  · exact hp

/-! ### Numbers -/

/-- A text on which `int()` has no room for interpretation: ASCII, no underscore, sign or space. -/
def PlainChars (s : Str) : Prop :=
  ∀ c ∈ s, c < 128 ∧ c ≠ c!"_" ∧ c ≠ c!"+" ∧ c ≠ c!"-" ∧ isPySpace c = false

/-- `scanDigits` on plain characters that are not all digits stops at a non-space -/
theorem scanDigits_plain_fail {base : Nat} {s : Str} (h : PlainChars s) (hn : ¬ IsNumeral base s)
    (acc k : Nat) :
    scanDigits base s false acc k = none ∨
    ∃ a d c t, scanDigits base s false acc k = some (a, d, c :: t) ∧ isPySpace c = false := by
  induction s generalizing acc k with
  | nil => exact absurd (fun c hc => by simp at hc) hn
  | cons c cs ih =>
    have hc := h c (by simp)
    rw [scanDigits, if_neg hc.2.1]
    by_cases hd : digitValue c < base
    · rw [if_pos hd]
      apply ih (fun d hd => h d (by simp [hd]))
      intro hn'
      apply hn
      intro d hd'
      rcases List.mem_cons.1 hd' with rfl | hd'
      · exact hd
      · exact hn' d hd'
    · rw [if_neg hd]
      split
      · exact .inl rfl
      · exact .inr ⟨acc, k, c, cs, rfl, hc.2.2.2.2⟩

theorem splitSign_plain {s : Str} (h : PlainChars s) : splitSign s = (false, s) := by
  unfold splitSign
  split
  · exact absurd rfl (h 43 (by simp)).2.2.1
  · exact absurd rfl (h 45 (by simp)).2.2.2.1
  · rfl

theorem dropWhile_space_plain {s : Str} (h : PlainChars s) : s.dropWhile isPySpace = s := by
  cases s with
  | nil => rfl
  | cons c cs => exact dropWhile_head (h c (by simp)).2.2.2.2

theorem pyInt_plain_none (env : Env) {base : Nat} {s : Str} (h : PlainChars s)
    (hr : dropRadixPrefix base s = s) (hn : s = [] ∨ ¬ IsNumeral base s) : pyInt env base s = none := by
  unfold pyInt
  rw [intTransform_ascii env (fun c hc => (h c hc).1), dropWhile_space_plain h]
  simp only [splitSign_plain h, hr]
  rcases hn with rfl | hn
  · simp [scanDigits]
  · rcases scanDigits_plain_fail h hn 0 0 with e | ⟨a, d, c, t, e, hc⟩
    · rw [e]
    · rw [e]
      simp only [dropWhile_head hc]
      simp

theorem radixDigit_some {R c : Nat} (hR : R ≤ 16) : Spec.radixDigit R c =
    if digitValue c < R then some (digitValue c) else none := by
  unfold Spec.radixDigit
  by_cases h1 : 48 ≤ c ∧ c ≤ 57
  · have : digitValue c = c - 48 := digitValue_digit (isDigit_iff.2 h1)
    simp [h1, Option.filter, this]
  · simp only [if_neg h1]
    by_cases h2 : 97 ≤ c ∧ c ≤ 102
    · have : digitValue c = c - 87 := by
        unfold digitValue
        rw [if_neg (by rw [isDigit_iff]; exact h1), if_neg (by simp; omega), if_pos (by simp; omega)]
      rw [if_pos h2, show c - 97 + 10 = c - 87 by omega, this]
      simp [Option.filter]
    · rw [if_neg h2]
      by_cases h3 : 65 ≤ c ∧ c ≤ 70
      · have : digitValue c = c - 55 := by
          unfold digitValue
          rw [if_neg (by rw [isDigit_iff]; exact h1), if_pos (by simp; omega)]
        rw [if_pos h3, show c - 65 + 10 = c - 55 by omega, this]
        simp [Option.filter]
      · rw [if_neg h3, if_neg]
        · rfl
        · intro h
          have := (digitValue_lt16 (c := c)).1 (by omega)
          rw [isHex_iff] at this
          omega

theorem radixValue_eq {R : Nat} (hR : R ≤ 16) (s : Str) : ∀ acc,
    (IsNumeral R s → Spec.radixValue R acc s = some (s.foldl (fun a c => a * R + digitValue c) acc)) ∧
    (¬ IsNumeral R s → Spec.radixValue R acc s = none) := by
  induction s with
  | nil => intro acc; exact ⟨fun _ => rfl, fun h => absurd (fun c hc => by simp at hc) h⟩
  | cons c cs ih =>
    intro acc
    rw [Spec.radixValue, radixDigit_some hR]
    constructor
    · intro h
      rw [if_pos (h c (by simp))]
      exact (ih _).1 (fun d hd => h d (by simp [hd]))
    · intro h
      by_cases hc : digitValue c < R
      · rw [if_pos hc]
        apply (ih _).2
        intro h'; apply h
        intro d hd
        rcases List.mem_cons.1 hd with rfl | hd
        · exact hc
        · exact h' d hd
      · rw [if_neg hc]

theorem radixValue_numeral {R : Nat} (hR : R ≤ 16) {s : Str} (h : IsNumeral R s) :
    Spec.radixValue R 0 s = some (numVal R s) := (radixValue_eq hR s 0).1 h

theorem radixValue_none {R : Nat} (hR : R ≤ 16) {s : Str} (h : ¬ IsNumeral R s) :
    Spec.radixValue R 0 s = none := (radixValue_eq hR s 0).2 h

theorem radixText_iff {R : Nat} (hR : R ≤ 16) {t : Str} : Spec.RadixText R t ↔ IsNumeral R t := by
  unfold Spec.RadixText IsNumeral
  constructor
  · intro h c hc
    have := h c hc
    rw [radixDigit_some hR] at this
    by_contra hn
    rw [if_neg hn] at this
    simp at this
  · intro h c hc
    rw [radixDigit_some hR, if_pos (h c hc)]; rfl

/-- what `scanDigits` has read: digit groups; the first may be empty behind a digit -/
theorem scanDigits_groups {base : Nat} {s : Str} : ∀ {us : Bool} {acc k a d : Nat} {rest : Str},
    scanDigits base s us acc k = some (a, d, rest) →
    ∃ g gs, s = [c!"_"].intercalate (g :: gs) ++ rest ∧ IsNumeral base g ∧
      (∀ h ∈ gs, h ≠ [] ∧ IsNumeral base h) ∧ (us = true ∨ k = 0 → g ≠ []) := by
  induction s with
  | nil =>
    intro us acc k a d rest h
    rw [scanDigits] at h
    split at h
    · cases h
    · rename_i hc
      simp only [Option.some.injEq, Prod.mk.injEq] at h
      obtain ⟨-, -, rfl⟩ := h
      refine ⟨[], [], rfl, fun c hc => by simp at hc, by simp, ?_⟩
      intro h; exact absurd (by simpa using h) hc
  | cons c cs ih =>
    intro us acc k a d rest h
    rw [scanDigits] at h
    split at h
    · rename_i hc
      split at h
      · cases h
      · rename_i hu
        obtain ⟨g, gs, e, h1, h2, h3⟩ := ih h
        refine ⟨[], g :: gs, by rw [e, hc]; rfl, fun c hc => by simp at hc, ?_, ?_⟩
        · intro x hx
          rcases List.mem_cons.1 hx with rfl | hx
          · exact ⟨h3 (.inl rfl), h1⟩
          · exact h2 x hx
        · intro h; exact absurd (by simpa using h) hu
    · split at h
      · rename_i hd
        obtain ⟨g, gs, e, h1, h2, h3⟩ := ih h
        refine ⟨c :: g, gs, ?_, ?_, h2, by simp⟩
        · rw [e]
          cases gs <;> simp [List.intercalate]
        · intro x hx
          rcases List.mem_cons.1 hx with rfl | hx
          · exact hd
          · exact h1 x hx
      · split at h
        · cases h
        · rename_i hu
          simp only [Option.some.injEq, Prod.mk.injEq] at h
          obtain ⟨-, -, rfl⟩ := h
          refine ⟨[], [], rfl, fun c hc => by simp at hc, by simp, ?_⟩
          intro h; exact absurd (by simpa using h) hu

theorem dropRadixPrefix_pre (base : Nat) (s : Str) :
    ∃ pre ∈ Spec.pyRadixPrefixes base, s = pre ++ dropRadixPrefix base s := by
  have triv : ([] : Str) ∈ Spec.pyRadixPrefixes base := by
    unfold Spec.pyRadixPrefixes; split
    · simp
    · split <;> simp
  unfold dropRadixPrefix
  split
  · rename_i x cs
    split
    · rename_i h
      simp only [Bool.or_eq_true, Bool.and_eq_true, beq_iff_eq] at h
      rcases h with ⟨rfl, h⟩ | ⟨rfl, h⟩
      · split
        · rcases h with rfl | rfl
          · exact ⟨u!"0x_", by decide, rfl⟩
          · exact ⟨u!"0X_", by decide, rfl⟩
        · rcases h with rfl | rfl
          · exact ⟨u!"0x", by decide, rfl⟩
          · exact ⟨u!"0X", by decide, rfl⟩
      · split
        · rcases h with rfl | rfl
          · exact ⟨u!"0o_", by decide, rfl⟩
          · exact ⟨u!"0O_", by decide, rfl⟩
        · rcases h with rfl | rfl
          · exact ⟨u!"0o", by decide, rfl⟩
          · exact ⟨u!"0O", by decide, rfl⟩
    · exact ⟨[], triv, rfl⟩
  · exact ⟨[], triv, rfl⟩

theorem splitSign_pre (s : Str) : ∃ sign ∈ ([[], u!"+", u!"-"] : List Str), s = sign ++ (splitSign s).2 := by
  unfold splitSign
  split
  · exact ⟨u!"+", by simp, rfl⟩
  · exact ⟨u!"-", by simp, rfl⟩
  · exact ⟨[], by simp, rfl⟩

theorem mem_takeWhile_true {p : Nat → Bool} {s : Str} {c : Nat} (h : c ∈ s.takeWhile p) : p c = true := by
  induction s with
  | nil => simp at h
  | cons d t ih =>
    rw [List.takeWhile_cons] at h
    split at h
    · rename_i hd
      rcases List.mem_cons.1 h with rfl | h
      · exact hd
      · exact ih h
    · simp at h

theorem dropWhile_nil_all {p : Nat → Bool} {s : Str} (h : s.dropWhile p = []) : ∀ c ∈ s, p c = true := by
  induction s with
  | nil => intro c hc; simp at hc
  | cons d t ih =>
    rw [List.dropWhile_cons] at h
    split at h
    · rename_i hd
      intro c hc
      rcases List.mem_cons.1 hc with rfl | hc
      · exact hd
      · exact ih h c hc
    · cases h

/-- what `int()` accepts is a Python numeral -/
theorem pyNumeral_of_pyInt {env : Env} {base : Nat} (hb : base ≤ 16) {t : Str} {v : Int}
    (ha : ∀ c ∈ t, c < 128) (h : pyInt env base t = some v) : Spec.PyNumeral base t := by
  unfold pyInt at h
  rw [intTransform_ascii env ha] at h
  simp only at h
  split at h
  · cases h
  · rename_i v' d rest hs
    split at h
    · cases h
    · rename_i hr
      obtain ⟨sign, hsign, es⟩ := splitSign_pre (t.dropWhile isPySpace)
      obtain ⟨pre, hpre, ep⟩ := dropRadixPrefix_pre base (splitSign (t.dropWhile isPySpace)).2
      obtain ⟨g, gs, e, h1, h2, h3⟩ := scanDigits_groups hs
      refine ⟨t.takeWhile isPySpace, sign, pre, g :: gs, rest, ?_, ?_, ?_, hsign, hpre, by simp, ?_⟩
      · rw [← e, ← ep, ← es, List.takeWhile_append_dropWhile]
      · exact fun c hc => mem_takeWhile_true hc
      · have hr : rest.dropWhile isPySpace = [] := by simpa using hr
        exact fun c hc => dropWhile_nil_all hr c hc
      · intro x hx
        rcases List.mem_cons.1 hx with rfl | hx
        · exact ⟨h3 (.inr rfl), (radixText_iff hb).2 h1⟩
        · exact ⟨(h2 x hx).1, (radixText_iff hb).2 (h2 x hx).2⟩

/-- ASCII text on which `int()` accepts only digits -/
def StrictText (base : Nat) (t : Str) : Prop :=
  (∀ c ∈ t, c < 128) ∧ (Spec.PyNumeral base t → Spec.RadixText base t)

theorem pyInt_nil (env : Env) (base : Nat) : pyInt env base [] = none := by
  unfold pyInt
  simp [intTransform, splitSign, dropRadixPrefix, scanDigits]

theorem pyInt_strict_none (env : Env) {base : Nat} (hb : base ≤ 16) {t : Str} (h : StrictText base t)
    (hn : t = [] ∨ ¬ IsNumeral base t) : pyInt env base t = none := by
  rcases hn with rfl | hn
  · exact pyInt_nil env base
  · cases hp : pyInt env base t with
    | none => rfl
    | some v => exact absurd ((radixText_iff hb).1 (h.2 (pyNumeral_of_pyInt hb h.1 hp))) hn

theorem pyInt_strict (env : Env) {base : Nat} (hb : base ≤ 16) (hb10 : base ≠ 10) {s : Str}
    (h : StrictText base s) (hne : s ≠ []) :
    pyInt env base s = (Spec.radixValue base 0 s).map Int.ofNat := by
  by_cases hn : IsNumeral base s
  · rw [pyInt_numeral env hb hn hne (fun e => absurd e hb10), radixValue_numeral hb hn]; rfl
  · rw [pyInt_strict_none env hb h (.inr hn), radixValue_none hb hn]; rfl

theorem StrictPart_hex {c : Nat} {rest : Str} (hx : c = 120 ∨ c = 88) (h : Spec.StrictPart (48 :: c :: rest)) :
    StrictText 16 rest := by
  refine ⟨fun d hd => h.1 d (by simp [hd]), ?_⟩
  have := h.2
  simpa [Spec.partRadix, hx] using this

theorem StrictPart_oct {c : Nat} {rest : Str} (hx : ¬ (c = 120 ∨ c = 88)) (h : Spec.StrictPart (48 :: c :: rest)) :
    StrictText 8 (c :: rest) := by
  refine ⟨fun d hd => h.1 d (by simp [hd]), ?_⟩
  have := h.2
  simpa [Spec.partRadix, hx] using this

theorem StrictPart_one {c : Nat} (h : Spec.StrictPart [c]) : StrictText 10 [c] := by
  refine ⟨h.1, ?_⟩
  have := h.2
  unfold Spec.partRadix at this
  split at this
  · simp_all
  · exact this

theorem StrictPart_dec {c : Nat} {rest : Str} (hc : c ≠ 48) (h : Spec.StrictPart (c :: rest)) :
    StrictText 10 (c :: rest) := by
  refine ⟨h.1, ?_⟩
  have := h.2
  unfold Spec.partRadix at this
  split at this
  · simp_all
  · exact this

/-- The code's number and the standard's agree, except that a decimal number with more digits than
the limit is refused (it is far above 2^32 then). -/
def NumAgree (r : Int) (o : Option Nat) : Prop :=
  (∃ v, r = Int.ofNat v ∧ o = some v) ∨ (r = -1 ∧ (o = none ∨ ∃ v, 2 ^ 32 ≤ v ∧ o = some v))

theorem dropRadixPrefix_10 (s : Str) : dropRadixPrefix 10 s = s := by
  unfold dropRadixPrefix
  split
  · simp
  · rfl

theorem numVal_ge {c : Nat} {t : Str} (hc : 0 < digitValue c) :
    10 ^ t.length ≤ numVal 10 (c :: t) := by
  rw [numVal_cons]
  have : 1 * 10 ^ t.length ≤ digitValue c * 10 ^ t.length := Nat.mul_le_mul_right _ hc
  omega

theorem pow_32_le {n : Nat} (h : 640 ≤ n + 1) : 2 ^ 32 ≤ 10 ^ n := by
  have h1 : 10 ^ 10 ≤ 10 ^ n := Nat.pow_le_pow_right (by omega) (by omega)
  have h2 : 2 ^ 32 ≤ 10 ^ 10 := by decide
  omega

theorem numAgree_some {o : Option Nat} {r : Int} (h : o.map Int.ofNat = some r) : NumAgree r o := by
  cases o with
  | none => simp at h
  | some v => simp at h; exact .inl ⟨v, h.symm, rfl⟩

theorem numAgree_map (o : Option Nat) :
    NumAgree (match o.map Int.ofNat with | some v => v | none => -1) o := by
  cases o with
  | none => exact .inr ⟨rfl, .inl rfl⟩
  | some v => exact .inl ⟨v, rfl, rfl⟩

theorem PlainChars.tail {c : Nat} {s : Str} (h : PlainChars (c :: s)) : PlainChars s :=
  fun d hd => h d (by simp [hd])

theorem parseIPv4Number_agree (env : Env) (he : EnvOK env) {p : Str} (h : Spec.StrictPart p) :
    NumAgree (parseIPv4Number env p).1 (Spec.ipv4Number p) := by
  unfold parseIPv4Number
  split
  · exact .inr ⟨rfl, .inl rfl⟩
  · -- one character
    rename_i c
    have e : Spec.ipv4Number [c] = Spec.radixValue 10 0 [c] := by
      unfold Spec.ipv4Number; split <;> simp_all
    rw [e]
    by_cases hn : IsNumeral 10 [c]
    · rw [pyInt_numeral env (by omega) hn (by simp) (fun _ => by
        rcases he with he | he
        · exact .inl he
        · right; simp; omega), radixValue_numeral (by omega) hn]
      exact .inl ⟨_, rfl, rfl⟩
    · rw [pyInt_strict_none env (by omega) (StrictPart_one h) (.inr hn), radixValue_none (by omega) hn]
      exact .inr ⟨rfl, .inl rfl⟩
  · rename_i c0 c1 rest
    split
    · -- hexadecimal
      rename_i hx
      simp only [Bool.and_eq_true, Bool.or_eq_true, beq_iff_eq] at hx
      obtain ⟨rfl, hx⟩ := hx
      have e : Spec.ipv4Number (48 :: c1 :: rest) = Spec.radixValue 16 0 rest := by
        simp [Spec.ipv4Number, hx]
      rw [e]
      split
      · rename_i hre
        rw [List.isEmpty_iff] at hre
        subst hre
        exact .inl ⟨0, rfl, rfl⟩
      · rename_i hre
        rw [List.isEmpty_iff] at hre
        rw [pyInt_strict env (by omega) (by omega) (StrictPart_hex hx h) hre]
        cases Spec.radixValue 16 0 rest with
        | none => exact .inr ⟨rfl, .inl rfl⟩
        | some v => exact .inl ⟨v, rfl, rfl⟩
    · rename_i hx
      simp only [Bool.and_eq_true, Bool.or_eq_true, beq_iff_eq] at hx
      split
      · -- octal
        rename_i h0
        simp only [beq_iff_eq] at h0
        subst h0
        have hx : ¬ (c1 = 120 ∨ c1 = 88) := fun h => hx ⟨rfl, h⟩
        have e : Spec.ipv4Number (48 :: c1 :: rest) = Spec.radixValue 8 0 (c1 :: rest) := by
          simp [Spec.ipv4Number, hx]
        rw [e, pyInt_strict env (by omega) (by omega) (StrictPart_oct hx h) (by simp)]
        cases Spec.radixValue 8 0 (c1 :: rest) with
        | none => exact .inr ⟨rfl, .inl rfl⟩
        | some v => exact .inl ⟨v, rfl, rfl⟩
      · -- decimal
        rename_i h0
        simp only [beq_iff_eq] at h0
        have e : Spec.ipv4Number (c0 :: c1 :: rest) = Spec.radixValue 10 0 (c0 :: c1 :: rest) := by
          unfold Spec.ipv4Number
          split
          · simp_all
          · rename_i heq; injection heq with h1 h2; exact absurd h1 h0
          · rfl
        rw [e]
        by_cases hn : IsNumeral 10 (c0 :: c1 :: rest)
        · rw [radixValue_numeral (by omega) hn]
          by_cases hl : env.maxStrDigits = 0 ∨ (c0 :: c1 :: rest).length ≤ env.maxStrDigits
          · rw [pyInt_numeral env (by omega) hn (by simp) (fun _ => hl)]
            exact .inl ⟨_, rfl, rfl⟩
          · cases hv : pyInt env 10 (c0 :: c1 :: rest) with
            | none =>
              refine .inr ⟨rfl, .inr ⟨_, ?_, rfl⟩⟩
              have hc0 := hn c0 (by simp)
              have hd0 := digitValue_lt10.1 hc0
              rw [digitValue_digit hd0] at hc0
              rw [isDigit_iff] at hd0
              have hpos : 0 < digitValue c0 := by
                rw [digitValue_digit (isDigit_iff.2 hd0)]; omega
              have := numVal_ge (t := c1 :: rest) hpos
              have hp := pow_32_le (n := (c1 :: rest).length) (by
                simp only [List.length_cons] at hl ⊢
                rcases he with he | he <;> omega)
              omega
            | some v =>
              rw [pyInt_long env hn (by simp) (by omega)] at hv
              cases hv
        · rw [pyInt_strict_none env (by omega) (StrictPart_dec h0 h) (.inr hn), radixValue_none (by omega) hn]
          exact .inr ⟨rfl, .inl rfl⟩

theorem NumAgree.nonneg_iff {r : Int} {o : Option Nat} (h : NumAgree r o) :
    0 ≤ r → o.isSome := by
  rcases h with ⟨v, rfl, rfl⟩ | ⟨rfl, _⟩
  · intro _; rfl
  · intro h; omega

/-! ### The decimal numeral of a byte -/

theorem parseIPv4Number_natDec (env : Env) (he : EnvOK env) {n : Nat} (hn : n < 256) :
    parseIPv4Number env (natDec n) = (Int.ofNat n, false) := by
  have hlen : (natDec n).length ≤ 3 := natDec_length (by omega) (by omega)
  have hp : pyInt env 10 (natDec n) = some (Int.ofNat n) := by
    rw [pyInt_numeral env (by omega) (natDec_numeral n) (natDec_ne_nil n) (fun _ => by
      rcases he with he | he
      · exact .inl he
      · right; omega), natDec_val]
  by_cases h0 : n = 0
  · subst h0
    rw [natDec_zero] at hp ⊢
    simp [parseIPv4Number, hp]
  · obtain ⟨d, t, e, h1, h2⟩ := natDec_head h0
    rw [e] at hp ⊢
    cases t with
    | nil => simp only [parseIPv4Number, hp]
    | cons c1 rest =>
      have hne : ((48 + d) == 48) = false := by simp; omega
      simp only [parseIPv4Number, hne, Bool.false_and, Bool.false_eq_true, if_false, hp]

theorem ipv4SerLoop_four (n : Nat) : ipv4SerLoop 4 n [] =
    [natDec (n / 256 / 256 / 256 % 256), natDec (n / 256 / 256 % 256), natDec (n / 256 % 256),
      natDec (n % 256)] := rfl

theorem ipv4Serialize_eq (n : Nat) : ipv4Serialize n =
    natDec (n / 2 ^ 24 % 256) ++ u!"." ++ natDec (n / 2 ^ 16 % 256) ++ u!"." ++
      natDec (n / 2 ^ 8 % 256) ++ u!"." ++ natDec (n % 256) := by
  unfold ipv4Serialize
  rw [ipv4SerLoop_four]
  simp only [joinWith, List.append_assoc, Nat.div_div_eq_div_mul]

theorem natDec_no_dot (n : Nat) : 46 ∉ natDec n := by
  intro h
  have := natDec_digits n 46 h
  exact absurd this (by decide)

theorem splitOn_ipv4Serialize (n : Nat) : splitOn 46 (ipv4Serialize n) =
    [natDec (n / 256 / 256 / 256 % 256), natDec (n / 256 / 256 % 256), natDec (n / 256 % 256),
      natDec (n % 256)] := by
  unfold ipv4Serialize
  rw [ipv4SerLoop_four, splitOn_joinWith (by simp)]
  intro p hp
  simp at hp
  rcases hp with rfl | rfl | rfl | rfl <;> exact natDec_no_dot _

theorem ipv4Numbers_cons (env : Env) (he : EnvOK env) {n : Nat} (hn : n < 256) (ps : List Str)
    (acc : List Nat) (log : Log) :
    ipv4Numbers env (natDec n :: ps) acc log = ipv4Numbers env ps (acc ++ [n]) log := by
  rw [ipv4Numbers, parseIPv4Number_natDec env he hn]
  simp only [Bool.false_eq_true, if_false]
  rw [if_neg (by simp)]
  rfl

theorem natDec_isEmpty (n : Nat) : (natDec n).isEmpty = false := by
  cases h : natDec n with
  | nil => exact absurd h (natDec_ne_nil n)
  | cons a b => rfl

theorem ipv4Parse_serialize (env : Env) (he : EnvOK env) (n : Nat) :
    ipv4Parse env (ipv4Serialize n) = .ok (n % 2 ^ 32) := by
  unfold ipv4Parse
  simp only [splitOn_ipv4Serialize, List.getLastD_cons, List.getLastD_nil, natDec_isEmpty,
    Bool.false_and, Bool.false_eq_true, if_false, List.length_cons, List.length_nil]
  rw [if_neg (by omega), ipv4Numbers_cons env he (by omega), ipv4Numbers_cons env he (by omega),
    ipv4Numbers_cons env he (by omega), ipv4Numbers_cons env he (by omega)]
  simp only [ipv4Numbers, List.nil_append, List.cons_append, Res.ok]
  have hany : ([n / 256 / 256 / 256 % 256, n / 256 / 256 % 256, n / 256 % 256, n % 256].any (· > 255))
      = false := by
    simp; omega
  have hany2 : ([n / 256 / 256 / 256 % 256, n / 256 / 256 % 256, n / 256 % 256, n % 256].dropLast.any
      (· > 255)) = false := by
    simp; omega
  simp only [hany, hany2, Bool.false_and, Bool.false_eq_true, if_false]
  rw [if_neg (by simp; omega)]
  simp only [List.dropLast, ipv4Sum, List.getLastD_cons, List.getLastD_nil]
  congr 2
  omega

theorem isEndsInANumber_serialize (env : Env) (n : Nat) : isEndsInANumber env (ipv4Serialize n) = true := by
  unfold isEndsInANumber
  simp only [splitOn_ipv4Serialize, List.getLastD_cons, List.getLastD_nil, natDec_isEmpty,
    Bool.false_and, Bool.false_eq_true, if_false]
  rw [if_pos]
  simp only [Bool.not_false, Bool.true_and, List.all_eq_true]
  exact natDec_digits _

/-! ### Agreement with the standard -/

theorem isEndsInANumber_eq (env : Env) (address : Str) : isEndsInANumber env address =
    (let last := (partsOf address).getLastD []
     (!last.isEmpty && last.all isDigit) || decide (0 ≤ (parseIPv4Number env last).1)) := by
  unfold isEndsInANumber partsOf
  have hne := splitOn_ne_nil 46 address
  generalize hp : splitOn 46 address = parts at hne
  simp only
  by_cases h1 : (parts.getLastD []).isEmpty = true
  · by_cases h2 : parts.length = 1
    · have : parts = [[]] := by
        match parts, h2 with
        | [x], _ => simp at h1; simp [h1]
      subst this
      simp [parseIPv4Number]
    · have : parts.length > 1 := by
        have : parts.length ≠ 0 := by simpa using hne
        omega
      simp only [h1, Bool.true_and, beq_iff_eq, h2, if_false, if_true, decide_eq_true_eq, this]
      cases h : (!(parts.dropLast.getLastD []).isEmpty && (parts.dropLast.getLastD []).all isDigit) <;> simp
  · have h1 : (parts.getLastD []).isEmpty = false := by simpa using h1
    simp only [h1, Bool.false_and, Bool.false_eq_true, if_false, Bool.not_false, Bool.true_and]
    cases h : (parts.getLastD []).all isDigit <;> simp

theorem numeral10_of_digits {s : Str} (h : ∀ c ∈ s, isDigit c = true) : IsNumeral 10 s :=
  fun c hc => digitValue_lt10.2 (h c hc)

theorem endsInANumber_agree (env : Env) (he : EnvOK env) (s : Str)
    (hp : ∀ p, (partsOf s).getLast? = some p → Spec.StrictPart p) :
    isEndsInANumber env s = Spec.endsInANumber s := by
  rw [isEndsInANumber_eq]
  unfold Spec.endsInANumber
  rw [← partsOf_eq]
  have hne := partsOf_ne_nil s
  rw [getLastD_eq _ _ hne, List.getLast?_eq_some_getLast hne]
  simp only
  have hlast := hp _ (List.getLast?_eq_some_getLast hne)
  generalize (partsOf s).getLast hne = last at hlast
  have hag := parseIPv4Number_agree env he hlast
  rw [Bool.eq_iff_iff]
  simp only [Bool.or_eq_true, Bool.and_eq_true, Bool.not_eq_true', decide_eq_true_eq,
    List.all_eq_true]
  constructor
  · rintro (⟨h1, h2⟩ | h)
    · left; exact ⟨by simpa using h1, h2⟩
    · right; exact hag.nonneg_iff h
  · rintro (⟨h1, h2⟩ | h)
    · left; exact ⟨by simpa using h1, h2⟩
    · rcases hag with ⟨v, hv, _⟩ | ⟨hr, ho | ⟨v, hv, ho⟩⟩
      · right; rw [hv]; simp
      · rw [ho] at h; simp at h
      · -- refused by the digit limit: then it is a decimal numeral
        left
        have hne' : last ≠ [] := by rintro rfl; simp [Spec.ipv4Number] at ho
        refine ⟨by simpa using hne', ?_⟩
        by_contra hnd
        -- not all digits, so the decimal branch fails and the others have no limit
        exfalso
        unfold parseIPv4Number at hr
        split at hr
        · exact hne' rfl
        · rename_i c
          have e : Spec.ipv4Number [c] = Spec.radixValue 10 0 [c] := by
            unfold Spec.ipv4Number; split <;> simp_all
          rw [e] at ho
          by_cases hn : IsNumeral 10 [c]
          · exact hnd (fun d hd => digitValue_lt10.1 (hn d hd))
          · rw [radixValue_none (by omega) hn] at ho; simp at ho
        · rename_i c0 c1 rest
          by_cases h0 : c0 = 48
          · subst h0
            by_cases hx : c1 = 120 ∨ c1 = 88
            · have e : Spec.ipv4Number (48 :: c1 :: rest) = Spec.radixValue 16 0 rest := by
                simp [Spec.ipv4Number, hx]
              rw [e] at ho
              have hxb : ((48 == 48) && (c1 == 120 || c1 == 88)) = true := by simpa using hx
              rw [if_pos hxb] at hr
              split at hr
              · simp at hr
              · rename_i hre
                rw [List.isEmpty_iff] at hre
                rw [pyInt_strict env (by omega) (by omega) (StrictPart_hex hx hlast) hre, ho] at hr
                simp at hr
            · have e : Spec.ipv4Number (48 :: c1 :: rest) = Spec.radixValue 8 0 (c1 :: rest) := by
                simp [Spec.ipv4Number, hx]
              rw [e] at ho
              have hn : IsNumeral 8 (c1 :: rest) := by
                by_contra hn
                rw [radixValue_none (by omega) hn] at ho; simp at ho
              apply hnd
              intro d hd
              rcases List.mem_cons.1 hd with rfl | hd
              · decide
              · exact digitValue_lt10.1 (by have := hn d hd; omega)
          · have e : Spec.ipv4Number (c0 :: c1 :: rest) = Spec.radixValue 10 0 (c0 :: c1 :: rest) := by
              unfold Spec.ipv4Number
              split
              · simp_all
              · rename_i heq; injection heq with h1 h2; exact absurd h1 h0
              · rfl
            rw [e] at ho
            have hn : IsNumeral 10 (c0 :: c1 :: rest) := by
              by_contra hn
              rw [radixValue_none (by omega) hn] at ho; simp at ho
            exact hnd (fun d hd => digitValue_lt10.1 (hn d hd))

/-- the outcome of the number loop against the standard's -/
theorem ipv4Numbers_agree (env : Env) (he : EnvOK env) (parts : List Str)
    (hp : ∀ p ∈ parts, Spec.StrictPart p) : ∀ (acc : List Nat) (log : Log),
    (∃ ns log', parts.mapM Spec.ipv4Number = some ns ∧ ipv4Numbers env parts acc log = .ok (acc ++ ns) log') ∨
    ((∃ log', ipv4Numbers env parts acc log = .err .ipv4Parse log') ∧
      (parts.mapM Spec.ipv4Number = none ∨
        ∃ ns, parts.mapM Spec.ipv4Number = some ns ∧ ∃ v ∈ ns, 2 ^ 32 ≤ v)) := by
  induction parts with
  | nil => intro acc log; left; exact ⟨[], log, rfl, by simp [ipv4Numbers]⟩
  | cons p ps ih =>
    intro acc log
    have hp' := hp p (by simp)
    have ih := ih (fun q hq => hp q (by simp [hq]))
    have hag := parseIPv4Number_agree env he hp'
    rw [ipv4Numbers, List.mapM_cons]
    rcases hag with ⟨v, hv, ho⟩ | ⟨hr, ho⟩
    · rw [if_neg (by rw [hv]; simp), ho]
      have := ih (acc ++ [(parseIPv4Number env p).1.toNat])
        (if (parseIPv4Number env p).2 then .ev .ipv4NonDecimalPart :: log else log)
      have hvn : (parseIPv4Number env p).1.toNat = v := by rw [hv]; rfl
      simp only [hvn] at this ⊢
      rcases this with ⟨ns, log', h1, h2⟩ | ⟨⟨log', h1⟩, h2⟩
      · left; exact ⟨v :: ns, log', by rw [h1]; rfl, by rw [h2]; simp⟩
      · right
        refine ⟨⟨log', h1⟩, ?_⟩
        rcases h2 with h2 | ⟨ns, h2, w, hw, hw2⟩
        · left; rw [h2]; rfl
        · right; exact ⟨v :: ns, by rw [h2]; rfl, w, by simp [hw], hw2⟩
    · rw [if_pos (by rw [hr]; decide)]
      right
      refine ⟨⟨_, rfl⟩, ?_⟩
      rcases ho with ho | ⟨v, hv, ho⟩
      · left; rw [ho]; rfl
      · rw [ho]
        cases hm : ps.mapM Spec.ipv4Number with
        | none => left; rfl
        | some ns => right; exact ⟨v :: ns, rfl, v, by simp, hv⟩

theorem ipv4Sum_combine {ns : List Nat} (hne : ns ≠ []) (hl : ns.length ≤ 4) :
    ipv4Sum ns.dropLast 0 (ns.getLastD 0) = Spec.ipv4Combine ns := by
  match ns, hne, hl with
  | [a], _, _ => rfl
  | [a, b], _, _ => simp [ipv4Sum, Spec.ipv4Combine]; omega
  | [a, b, c], _, _ => simp [ipv4Sum, Spec.ipv4Combine]; omega
  | [a, b, c, d], _, _ => simp [ipv4Sum, Spec.ipv4Combine]; omega

theorem ipv4Parse_eq (env : Env) (address : Str) : ipv4Parse env address =
    (let log : Log := if ((splitOn 46 address).getLastD []).isEmpty then [.ev .ipv4EmptyPart] else []
     let parts := partsOf address
     if parts.length > 4 then .err .ipv4Parse (.ev .ipv4TooManyParts :: log)
     else
       match ipv4Numbers env parts [] log with
       | ⟨.error e, log⟩ => .err e log
       | ⟨.ok numbers, log⟩ =>
         let tooLong := numbers.any (strTooLong env)
         let last := numbers.getLastD 0
         let out := numbers.any (· > 255)
         if out && env.validity && tooLong then .err .valueError (.broken .ipv4OutOfRangePart :: log)
         else
           let log := if out then .ev .ipv4OutOfRangePart :: log else log
           if numbers.dropLast.any (· > 255) && decide (last ≤ 255) then
             if tooLong then
               .err .valueError (if env.validity then .broken .undefined :: log else log)
             else .err .ipv4Parse (.ev .undefined :: log)
           else if last ≥ 256 ^ (5 - numbers.length) then
             if tooLong then
               .err .valueError (if env.validity then .broken .undefined :: log else log)
             else .err .ipv4Parse (.ev .undefined :: log)
           else .ok (ipv4Sum numbers.dropLast 0 last) log) := rfl

end Urlstd
