/-
Lemmas on the UTF-16 pass and the UTF-8 codec.
-/
import Verif.Lemmas.Ascii
import Verif.Codec
import Mathlib.Tactic.ByContra
import Verif.Spec.Text

namespace Urlstd

open Spec

theorem cons_left {a b : Nat} (h : a = b) (t : List Nat) : a :: t = b :: t := by rw [h]

@[simp] theorem utf16Units_nil : utf16Units [] = [] := rfl

theorem utf16Units_cons_lt {c : Nat} (h : c < 0x10000) (s : Str) :
    utf16Units (c :: s) = c :: utf16Units s := by
  simp [utf16Units, h]

theorem utf16Units_cons_ge {c : Nat} (h : ¬ c < 0x10000) (s : Str) :
    utf16Units (c :: s) =
      (0xD800 + (c - 0x10000) / 0x400) :: (0xDC00 + (c - 0x10000) % 0x400) :: utf16Units s := by
  simp [utf16Units, h]

theorem utf16Decode_pair (u v : Nat) (rest : List Nat) (hu : isHigh u = true) (hv : isLow v = true) :
    utf16Decode (u :: v :: rest) = (0x10000 + (u - 0xD800) * 0x400 + (v - 0xDC00)) :: utf16Decode rest := by
  simp [utf16Decode, hu, hv]

theorem utf16Decode_plain (u : Nat) (rest : List Nat) (hu : isHigh u = false) (hv : isLow u = false) :
    utf16Decode (u :: rest) = u :: utf16Decode rest := by
  cases rest <;> simp [utf16Decode, hu, hv]

theorem utf16Decode_low (u : Nat) (rest : List Nat) (hu : isHigh u = false) (hv : isLow u = true) :
    utf16Decode (u :: rest) = 0xFFFD :: utf16Decode rest := by
  cases rest <;> simp [utf16Decode, hu, hv]

theorem utf16Decode_high (u : Nat) (rest : List Nat) (hu : isHigh u = true)
    (hr : ∀ v t, rest = v :: t → isLow v = false) :
    utf16Decode (u :: rest) = 0xFFFD :: utf16Decode rest := by
  cases rest with
  | nil => simp [utf16Decode, hu]
  | cons v t => simp [utf16Decode, hu, hr v t rfl]

theorem toScalar_supp {a : Nat} (h : ¬ a < 0x10000) (h2 : a ≤ 0x10FFFF) (s : Str) :
    toScalar (a :: s) = a :: toScalar s := by
  unfold toScalar
  rw [utf16Units_cons_ge h, utf16Decode_pair]
  · exact cons_left (by omega) _
  · simp only [isHigh, Bool.and_eq_true, decide_eq_true_eq]; omega
  · simp only [isLow, Bool.and_eq_true, decide_eq_true_eq]; omega

theorem toScalar_plain {a : Nat} (h : a < 0x10000) (h2 : ¬ Surrogate a) (s : Str) :
    toScalar (a :: s) = a :: toScalar s := by
  unfold toScalar
  rw [utf16Units_cons_lt h, utf16Decode_plain]
  · simp only [isHigh, Bool.and_eq_false_iff, decide_eq_false_iff_not, Surrogate] at *; omega
  · simp only [isLow, Bool.and_eq_false_iff, decide_eq_false_iff_not, Surrogate] at *; omega

theorem toScalar_scalar {a : Nat} (h2 : a ≤ 0x10FFFF) (h3 : ¬ Surrogate a) (s : Str) :
    toScalar (a :: s) = a :: toScalar s := by
  by_cases h : a < 0x10000
  · exact toScalar_plain h h3 s
  · exact toScalar_supp h h2 s

@[simp] theorem toScalar_nil : toScalar [] = [] := rfl

theorem combine_scalar {a : Nat} (h3 : ¬ Surrogate a) (s : Str) :
    combineSurrogates (a :: s) = a :: combineSurrogates s := by
  cases s with
  | nil => simp [combineSurrogates, h3]
  | cons b t =>
    rw [combineSurrogates, if_neg, if_neg h3]
    simp only [Surrogate] at h3; omega

/-- the first unit of a string is a low surrogate only if its first code point is -/
theorem units_head_low (s : Str) (hs : IsStr s) (v : Nat) (t : List Nat)
    (h : utf16Units s = v :: t) : isLow v = true → ∃ s', s = v :: s' := by
  cases s with
  | nil => simp at h
  | cons c s' =>
    by_cases hc : c < 0x10000
    · rw [utf16Units_cons_lt hc] at h
      simp at h; intro _; exact ⟨s', by rw [h.1]⟩
    · rw [utf16Units_cons_ge hc] at h
      have := hs c (by simp)
      intro hl
      simp at h
      simp [isLow] at hl
      omega

theorem toScalar_eq_combine (s : Str) (hs : IsStr s) : toScalar s = combineSurrogates s := by
  fun_induction combineSurrogates s with
  | case1 => rfl
  | case2 a h =>
    simp only [Surrogate] at h
    have : a < 0x10000 := by omega
    simp only [toScalar, utf16Units_cons_lt this, utf16Units_nil, utf16Decode]
    rw [if_pos]; simp [isHigh, isLow]; omega
  | case3 a h => exact toScalar_scalar (hs a (by simp)) h []
  | case4 a b rest h ih =>
    have ha : a < 0x10000 := by omega
    have hb : b < 0x10000 := by omega
    rw [← ih (fun c hc => hs c (by simp [hc]))]
    unfold toScalar
    rw [utf16Units_cons_lt ha, utf16Units_cons_lt hb, utf16Decode_pair]
    · simp [isHigh]; omega
    · simp [isLow]; omega
  | case5 a b rest h1 h2 ih =>
    have hs' : IsStr (b :: rest) := fun c hc => hs c (by simp [hc])
    rw [← ih hs']
    have ha : a < 0x10000 := by simp only [Surrogate] at h2; omega
    unfold toScalar
    rw [utf16Units_cons_lt ha]
    simp only [Surrogate] at h2
    by_cases hl : isLow a = true
    · rw [utf16Decode_low _ _ _ hl]
      simp [isHigh, isLow] at *; omega
    · have hh : isHigh a = true := by simp [isHigh, isLow] at *; omega
      rw [utf16Decode_high _ _ hh]
      intro v t hv
      by_contra hlv
      obtain ⟨s', hs''⟩ := units_head_low _ hs' v t hv (by simpa using hlv)
      simp at hs''
      simp [isHigh, isLow] at hh hlv
      omega
  | case6 a b rest h1 h2 ih =>
    rw [toScalar_scalar (hs a (by simp)) h2, ih (fun c hc => hs c (by simp [hc]))]

theorem scalar_fffd : (0xFFFD : Nat) ≤ 0x10FFFF ∧ ¬ Surrogate 0xFFFD :=
  ⟨by omega, by unfold Surrogate; omega⟩

theorem combine_isScalar (s : Str) (hs : IsStr s) : IsScalarStr (combineSurrogates s) := by
  fun_induction combineSurrogates s with
  | case1 => simp [IsScalarStr]
  | case2 a h => intro c hc; simp only [List.mem_singleton] at hc; subst hc; exact scalar_fffd
  | case3 a h =>
    intro c hc
    simp at hc; subst hc
    exact ⟨hs c (by simp), h⟩
  | case4 a b rest h ih =>
    intro c hc
    rcases List.mem_cons.1 hc with hc | hc
    · simp only [Surrogate]; omega
    · exact ih (fun c hc => hs c (by simp [hc])) c hc
  | case5 a b rest h1 h2 ih =>
    intro c hc
    rcases List.mem_cons.1 hc with rfl | hc
    · exact scalar_fffd
    · exact ih (fun c hc => hs c (by simp [hc])) c hc
  | case6 a b rest h1 h2 ih =>
    intro c hc
    rcases List.mem_cons.1 hc with rfl | hc
    · exact ⟨hs _ (by simp), h2⟩
    · exact ih (fun c hc => hs c (by simp [hc])) c hc

theorem combine_of_scalar (s : Str) (hs : IsScalarStr s) : combineSurrogates s = s := by
  induction s with
  | nil => rfl
  | cons a t ih =>
    rw [combine_scalar (hs a (by simp)).2, ih (fun c hc => hs c (by simp [hc]))]

theorem Spec.IsScalarStr.isStr {s : Str} (h : IsScalarStr s) : IsStr s := fun c hc => (h c hc).1

theorem toScalar_of_scalar (s : Str) (hs : IsScalarStr s) : toScalar s = s := by
  rw [toScalar_eq_combine s hs.isStr, combine_of_scalar s hs]

theorem toScalar_isScalar (s : Str) (hs : IsStr s) : IsScalarStr (toScalar s) := by
  rw [toScalar_eq_combine s hs]; exact combine_isScalar s hs

theorem utf8Decode_1 {b0 : Nat} (h : b0 < 0x80) (t : Bytes) :
    utf8Decode (b0 :: t) = b0 :: utf8Decode t := by
  conv => lhs; unfold utf8Decode
  rw [if_pos h]

theorem utf8Decode_2 {b0 b1 : Nat} (h : 0xC2 ≤ b0) (h' : b0 < 0xE0) (h1 : isCont b1 = true)
    (t : Bytes) : utf8Decode (b0 :: b1 :: t) = ((b0 - 0xC0) * 0x40 + (b1 - 0x80)) :: utf8Decode t := by
  conv => lhs; unfold utf8Decode
  rw [if_neg (by omega), if_neg (by omega), if_pos (by omega)]
  simp only [h1, if_true]

theorem utf8Decode_3 {b0 b1 b2 : Nat} (h : 0xE0 ≤ b0) (h' : b0 < 0xF0) (h1 : ok3 b0 b1 = true)
    (h2 : isCont b2 = true) (t : Bytes) :
    utf8Decode (b0 :: b1 :: b2 :: t) =
      ((b0 - 0xE0) * 0x1000 + (b1 - 0x80) * 0x40 + (b2 - 0x80)) :: utf8Decode t := by
  conv => lhs; unfold utf8Decode
  rw [if_neg (by omega), if_neg (by omega), if_neg (by omega), if_pos (by omega)]
  simp only [h1, h2, if_true]

theorem utf8Decode_4 {b0 b1 b2 b3 : Nat} (h : 0xF0 ≤ b0) (h' : b0 < 0xF5) (h1 : ok4 b0 b1 = true)
    (h2 : isCont b2 = true) (h3 : isCont b3 = true) (t : Bytes) :
    utf8Decode (b0 :: b1 :: b2 :: b3 :: t) =
      ((b0 - 0xF0) * 0x40000 + (b1 - 0x80) * 0x1000 + (b2 - 0x80) * 0x40 + (b3 - 0x80))
        :: utf8Decode t := by
  conv => lhs; unfold utf8Decode
  rw [if_neg (by omega), if_neg (by omega), if_neg (by omega), if_neg (by omega), if_pos (by omega)]
  simp only [h1, h2, h3, if_true]

theorem isCont_iff {b : Nat} : isCont b = true ↔ 0x80 ≤ b ∧ b < 0xC0 := by
  simp only [isCont, Bool.and_eq_true, decide_eq_true_eq]

theorem ok3_iff {b0 b1 : Nat} : ok3 b0 b1 = true ↔
    (0x80 ≤ b1 ∧ b1 < 0xC0) ∧ (b1 < 0xA0 → b0 ≠ 0xE0) ∧ (0xA0 ≤ b1 → b0 ≠ 0xED) := by
  simp only [ok3, Bool.and_eq_true, isCont_iff]
  by_cases h : b1 < 0xA0
  · simp only [if_pos h, Bool.not_eq_true', beq_eq_false_iff_ne]; omega
  · simp only [if_neg h, Bool.not_eq_true', beq_eq_false_iff_ne]; omega

theorem ok4_iff {b0 b1 : Nat} : ok4 b0 b1 = true ↔
    (0x80 ≤ b1 ∧ b1 < 0xC0) ∧ (b1 < 0x90 → b0 ≠ 0xF0) ∧ (0x90 ≤ b1 → b0 ≠ 0xF4) := by
  simp only [ok4, Bool.and_eq_true, isCont_iff]
  by_cases h : b1 < 0x90
  · simp only [if_pos h, Bool.not_eq_true', beq_eq_false_iff_ne]; omega
  · simp only [if_neg h, Bool.not_eq_true', beq_eq_false_iff_ne]; omega

theorem utf8Decode_encodeCP (c : Nat) (h1 : c ≤ 0x10FFFF) (h2 : ¬ Surrogate c) (t : Bytes) :
    utf8Decode (utf8EncodeCP c ++ t) = c :: utf8Decode t := by
  simp only [Surrogate] at h2
  unfold utf8EncodeCP
  split
  · exact utf8Decode_1 (by assumption) t
  · split
    · simp only [List.cons_append, List.nil_append]
      rw [utf8Decode_2 (by omega) (by omega) (isCont_iff.2 (by omega))]
      exact cons_left (by omega) _
    · split
      · simp only [List.cons_append, List.nil_append]
        rw [utf8Decode_3 (by omega) (by omega) (ok3_iff.2 (by omega)) (isCont_iff.2 (by omega))]
        exact cons_left (by omega) _
      · simp only [List.cons_append, List.nil_append]
        rw [utf8Decode_4 (by omega) (by omega) (ok4_iff.2 (by omega)) (isCont_iff.2 (by omega))
          (isCont_iff.2 (by omega))]
        exact cons_left (by omega) _

theorem utf8Decode_encodeStrict_append (s : Str) (hs : IsScalarStr s) (t : Bytes) :
    utf8Decode (utf8EncodeStrict s ++ t) = s ++ utf8Decode t := by
  induction s with
  | nil => simp [utf8EncodeStrict]
  | cons c s ih =>
    have hc := hs c (by simp)
    have : utf8EncodeStrict (c :: s) ++ t = utf8EncodeCP c ++ (utf8EncodeStrict s ++ t) := by
      simp [utf8EncodeStrict]
    rw [this, utf8Decode_encodeCP c hc.1 hc.2, ih (fun c hc => hs c (by simp [hc]))]
    rfl

@[simp] theorem utf8Decode_nil : utf8Decode [] = [] := by simp [utf8Decode]

theorem utf8Decode_encodeStrict (s : Str) (hs : IsScalarStr s) :
    utf8Decode (utf8EncodeStrict s) = s := by
  simpa using utf8Decode_encodeStrict_append s hs []

/-- `utf8_decode(utf8_encode(s))` -/
theorem usv_core (s : Str) (hs : IsStr s) : utf8Decode (utf8Encode s) = combineSurrogates s := by
  unfold utf8Encode
  rw [utf8Decode_encodeStrict _ (toScalar_isScalar s hs), toScalar_eq_combine s hs]

/-- bytes -/
def IsBytes (b : Bytes) : Prop := ∀ x ∈ b, x < 256

theorem utf8EncodeCP_bytes (c : Nat) (h : c ≤ 0x10FFFF) : IsBytes (utf8EncodeCP c) := by
  unfold utf8EncodeCP
  intro x hx
  split at hx
  · simp at hx; omega
  · split at hx
    · simp at hx; omega
    · split at hx
      · simp at hx; omega
      · simp at hx; omega

theorem utf8EncodeStrict_bytes (s : Str) (hs : IsStr s) : IsBytes (utf8EncodeStrict s) := by
  intro x hx
  simp only [utf8EncodeStrict, List.mem_flatMap] at hx
  obtain ⟨c, hc, hx⟩ := hx
  exact utf8EncodeCP_bytes c (hs c hc) x hx

theorem utf8Encode_bytes (s : Str) (hs : IsStr s) : IsBytes (utf8Encode s) :=
  utf8EncodeStrict_bytes _ (toScalar_isScalar s hs).isStr

theorem utf8Decode_isScalar (b : Bytes) : IsScalarStr (utf8Decode b) := by
  have hC : ∀ (a : Nat) (t : Str), (a ≤ 0x10FFFF ∧ ¬ Surrogate a) → IsScalarStr t →
      IsScalarStr (a :: t) := by
    intro a t ha ht c hc
    rcases List.mem_cons.1 hc with rfl | hc
    · exact ha
    · exact ht c hc
  have hF : (0xFFFD : Nat) ≤ 0x10FFFF ∧ ¬ (0xD800 ≤ 0xFFFD ∧ 0xFFFD ≤ 0xDFFF) := by omega
  have hN : IsScalarStr [] := fun c hc => by simp only [List.not_mem_nil] at hc
  fun_induction utf8Decode b <;> first
    | exact hN
    | (refine hC _ _ ?_ (by first | assumption | exact hN)
       unfold Surrogate
       first
         | omega
         | (simp only [isCont_iff, ok3_iff, ok4_iff] at *
            omega))

theorem utf8EncodeCP_ascii {c : Nat} (h : c < 0x80) : utf8EncodeCP c = [c] := by
  simp [utf8EncodeCP, h]

theorem utf8EncodeCP_nonascii {c : Nat} (h : ¬ c < 0x80) : ∀ x ∈ utf8EncodeCP c, 0x80 ≤ x := by
  intro x hx
  unfold utf8EncodeCP at hx
  rw [if_neg h] at hx
  split at hx
  · simp at hx; omega
  · split at hx
    · simp at hx; omega
    · simp at hx; omega

theorem utf8EncodeStrict_ascii (s : Str) (h : ∀ c ∈ s, c < 0x80) : utf8EncodeStrict s = s := by
  induction s with
  | nil => rfl
  | cons c s ih =>
    have : utf8EncodeStrict (c :: s) = utf8EncodeCP c ++ utf8EncodeStrict s := by
      simp [utf8EncodeStrict]
    rw [this, utf8EncodeCP_ascii (h c (by simp)), ih (fun c hc => h c (by simp [hc]))]
    rfl

theorem isScalar_of_ascii {s : Str} (h : ∀ c ∈ s, c < 0x80) : IsScalarStr s := by
  intro c hc
  have := h c hc
  simp only [Surrogate]; omega

theorem toScalar_ascii {s : Str} (h : ∀ c ∈ s, c < 0x80) : toScalar s = s :=
  toScalar_of_scalar s (isScalar_of_ascii h)

theorem utf8Encode_ascii {s : Str} (h : ∀ c ∈ s, c < 0x80) : utf8Encode s = s := by
  rw [utf8Encode, toScalar_ascii h, utf8EncodeStrict_ascii s h]

theorem utf8Decode_ascii {s : Str} (h : ∀ c ∈ s, c < 0x80) : utf8Decode s = s := by
  have := utf8Decode_encodeStrict s (isScalar_of_ascii h)
  rwa [utf8EncodeStrict_ascii s h] at this

end Urlstd
