/-
A parse without a validation error ends with a URL that is written without one.
-/
import Verif.Lemmas.ErrorFree4
import Verif.Spec.CleanUrl

set_option linter.unusedSimpArgs false
set_option linter.unusedVariables false

namespace Urlstd

open Spec (URLUnits Units CleanUrl PathText)

/-! ### Encoding URL units -/

theorem pctByte_units {ex : Nat → Prop} {b : Nat} (hb : b < 256) {r : Str} (hr : URLUnits ex r) : URLUnits ex (pctByte b ++ r) := by
  have h : ∀ d < 16, isHex (hexDigitUpper d) = true := by decide
  exact .byte (h _ (by omega)) (h _ (by omega)) hr

theorem utf8EncodeCP_byte {c : Nat} (hc : c ≤ 0x10FFFF) : ∀ b ∈ utf8EncodeCP c, b < 256 := by
  intro b hb
  unfold utf8EncodeCP at hb
  split at hb
  · simp at hb; omega
  · split at hb
    · simp at hb; omega
    · split at hb <;> (simp at hb; omega)

theorem utf8EncodeCP_high {c : Nat} (hc : c ≤ 0x10FFFF) (h : 128 ≤ c) : ∀ b ∈ utf8EncodeCP c, 128 ≤ b ∧ b < 256 := by
  intro b hb
  refine ⟨?_, utf8EncodeCP_byte hc b hb⟩
  unfold utf8EncodeCP at hb
  rw [if_neg (by omega)] at hb
  split at hb
  · simp at hb; omega
  · split at hb <;> (simp at hb; omega)

theorem quoter_high {safe : Nat → Bool} {b : Nat} (h : 128 ≤ b) : quoter safe b = pctByte b := by
  unfold quoter
  rw [if_neg]
  intro hq
  have := quoteSafe_ascii hq
  omega

theorem codePoint_scalar {c : Nat} (h : Spec.URLCodePoint c) : c ≤ 0x10FFFF ∧ ¬ Spec.Surrogate c := by
  unfold Spec.URLCodePoint Spec.Letter Spec.Digit at h
  rcases h with h | h | h | h
  · exact ⟨by omega, by unfold Spec.Surrogate; omega⟩
  · exact ⟨by omega, by unfold Spec.Surrogate; omega⟩
  · simp only [List.mem_cons, List.not_mem_nil, or_false] at h
    exact ⟨by omega, by unfold Spec.Surrogate; omega⟩
  · exact ⟨by omega, h.2.2.1⟩

theorem quoted_units {ex : Nat → Prop} {safe : Nat → Bool} {c : Nat} (hc : Spec.URLCodePoint c) (hx : ¬ ex c) {r : Str} (hr : URLUnits ex r) :
    URLUnits ex ((utf8EncodeCP c).flatMap (quoter safe) ++ r) := by
  by_cases h : c < 128
  · have : utf8EncodeCP c = [c] := by unfold utf8EncodeCP; rw [if_pos h]
    rw [this]
    simp only [List.flatMap_cons, List.flatMap_nil, List.append_nil]
    unfold quoter
    split
    · exact .point hc hx hr
    · exact pctByte_units (by omega) hr
  · have hb := utf8EncodeCP_high (codePoint_scalar hc).1 (by omega)
    generalize utf8EncodeCP c = bs at hb
    induction bs with
    | nil => exact hr
    | cons b bs ih =>
      rw [List.flatMap_cons, quoter_high (hb b (by simp)).1, List.append_assoc]
      exact pctByte_units (hb b (by simp)).2 (ih fun x hx => hb x (by simp [hx]))

theorem hex_quoter {safe : Nat → Bool} {a : Nat} (h : isHex a = true) : (utf8EncodeCP a).flatMap (quoter safe) = [a] := by
  have h1 := hex_lt h
  have : utf8EncodeCP a = [a] := by unfold utf8EncodeCP; rw [if_pos (by omega)]
  rw [this]
  simp only [List.flatMap_cons, List.flatMap_nil, List.append_nil]
  unfold quoter quoteSafe
  rw [alwaysSafe_hex h]
  rfl

theorem encode_scalar {c : Nat} (h1 : c ≤ 0x10FFFF) (h2 : ¬ Spec.Surrogate c) (s : Str) (safe : Nat → Bool) :
    utf8PercentEncode (c :: s) safe = (utf8EncodeCP c).flatMap (quoter safe) ++ utf8PercentEncode s safe := by
  rw [utf8PercentEncode_false, utf8PercentEncode_false]
  unfold utf8Encode utf8EncodeStrict
  rw [toScalar_scalar h1 h2, List.flatMap_cons, List.flatMap_append]

theorem hex_scalar {a : Nat} (h : isHex a = true) : a ≤ 0x10FFFF ∧ ¬ Spec.Surrogate a := codePoint_scalar (hex_point h)

theorem encode_units {ex : Nat → Prop} {safe : Nat → Bool} (hp : safe c!"%" = true) {s : Str} (h : URLUnits ex s) :
    URLUnits ex (utf8PercentEncode s safe) := by
  induction h with
  | nil => rw [encode_nil]; exact .nil
  | point hc hx hs ih =>
    rw [encode_scalar (codePoint_scalar hc).1 (codePoint_scalar hc).2]
    exact quoted_units hc hx ih
  | byte ha hb hs ih =>
    rw [encode_cons (by decide), encode_scalar (hex_scalar ha).1 (hex_scalar ha).2, encode_scalar (hex_scalar hb).1 (hex_scalar hb).2,
      hex_quoter ha, hex_quoter hb]
    have : quoter safe c!"%" = [c!"%"] := by
      unfold quoter quoteSafe
      rw [hp]
      rfl
    rw [this]
    exact .byte ha hb ih

/-- the same for the encoding of one character after another -/
theorem encode_each_units {ex : Nat → Prop} {s : Str} (h : URLUnits ex s) : URLUnits ex (s.flatMap fun c => utf8PercentEncode [c] safeC0) := by
  have hex : ∀ a, isHex a = true → utf8PercentEncode [a] safeC0 = [a] := by
    intro a ha
    rw [encode_scalar (hex_scalar ha).1 (hex_scalar ha).2, hex_quoter ha, encode_nil]
    rfl
  induction h with
  | nil => exact .nil
  | point hc hx hs ih =>
    rw [List.flatMap_cons, encode_scalar (codePoint_scalar hc).1 (codePoint_scalar hc).2, encode_nil, List.append_nil]
    exact quoted_units hc hx ih
  | byte ha hb hs ih =>
    rw [List.flatMap_cons, List.flatMap_cons, List.flatMap_cons, hex _ ha, hex _ hb]
    exact .byte ha hb ih

/-! ### Paths -/

theorem pathPieces_ne (sp : Bool) (t : Str) : pathPieces sp t ≠ [] := by
  cases t with
  | nil => simp [pathPieces]
  | cons c t =>
    unfold pathPieces
    split
    · simp
    · split <;> simp

theorem pathPieces_units {sp : Bool} {t : Str} (h : Units t) : ∀ p ∈ pathPieces sp t, Units p := by
  have hstep : ∀ c t, isPathSep sp c = false → ∃ p ps, pathPieces sp t = p :: ps ∧ pathPieces sp (c :: t) = (c :: p) :: ps := by
    intro c t hc
    cases hp : pathPieces sp t with
    | nil => exact absurd hp (pathPieces_ne sp t)
    | cons p ps =>
      refine ⟨p, ps, rfl, ?_⟩
      conv => lhs; unfold pathPieces
      rw [hc, hp]
      rfl
  have hhex : ∀ a, isHex a = true → isPathSep sp a = false := by
    intro a ha
    have := hex_lt ha
    have h2 : a ≠ 47 ∧ a ≠ 92 := by rw [isHex_iff] at ha; omega
    simp [isPathSep, h2.1, h2.2]
  induction h with
  | nil => intro p hp; simp [pathPieces] at hp; subst hp; exact .nil
  | @point c s hc hx hs ih =>
    by_cases hsep : isPathSep sp c = true
    · intro p hp
      unfold pathPieces at hp
      rw [if_pos hsep] at hp
      rcases List.mem_cons.1 hp with rfl | hp
      · exact .nil
      · exact ih p hp
    · obtain ⟨p0, ps, h1, h2⟩ := hstep c s (by simpa using hsep)
      rw [h1] at ih
      rw [h2]
      intro p hp
      rcases List.mem_cons.1 hp with rfl | hp
      · exact .point hc hx (ih p0 (by simp))
      · exact ih p (by simp [hp])
  | @byte a b s ha hb hs ih =>
    obtain ⟨p0, ps, h1, h2⟩ := hstep b s (hhex b hb)
    obtain ⟨p1, ps1, h3, h4⟩ := hstep a (b :: s) (hhex a ha)
    obtain ⟨p2, ps2, h5, h6⟩ := hstep c!"%" (a :: b :: s) (by cases sp <;> rfl)
    rw [h2] at h3; cases h3
    rw [h4] at h5; cases h5
    rw [h1] at ih
    rw [h6]
    intro p hp
    rcases List.mem_cons.1 hp with rfl | hp
    · exact .byte ha hb (ih p0 (by simp))
    · exact ih p (by simp [hp])

theorem mem_shortenPath {sch : Str} {path : List Str} {p : Str} (h : p ∈ shortenPath sch path) : p ∈ path := by
  unfold shortenPath at h
  split at h
  · exact h
  · split at h
    · exact h
    · cases h
  · exact List.dropLast_subset _ h

theorem addSegment_units {sch : Str} {path : List Str} {b : Str} {slash : Bool} (hp : ∀ p ∈ path, Units p) (hb : Units b) :
    ∀ p ∈ addSegment sch path b slash, Units p := by
  have hshort : ∀ p ∈ shortenPath sch path, Units p := fun p h => hp p (mem_shortenPath h)
  have hadd : ∀ (l : List Str) (x : Str), (∀ p ∈ l, Units p) → Units x → ∀ p ∈ l ++ [x], Units p := by
    intro l x hl hx p hm
    rcases List.mem_append.1 hm with hm | hm
    · exact hl p hm
    · rw [List.mem_singleton.1 hm]; exact hx
  unfold addSegment
  dsimp only
  split
  · split
    · exact hshort
    · exact hadd _ _ hshort .nil
  · split
    · split
      · exact hp
      · exact hadd _ _ hp .nil
    · split
      · rename_i hw
        simp only [Bool.and_eq_true] at hw
        obtain ⟨x, y, hxy, hx, -⟩ := (driveLetter_iff _).1 hw.2
        rw [hxy]
        refine hadd _ _ hp (.point ?_ (fun h => h) (.point (by decide) (fun h => h) .nil))
        exact .inl hx
      · exact hadd _ _ hp (encode_units (by decide) hb)

theorem addPieces_units {sch : Str} (ps : List Str) : ∀ (path : List Str), (∀ p ∈ path, Units p) → (∀ p ∈ ps, Units p) →
    ∀ p ∈ addPieces sch path ps, Units p := by
  induction ps with
  | nil => intro path hp _; exact hp
  | cons q ps ih =>
    intro path hp hps
    cases ps with
    | nil => exact addSegment_units hp (hps q (by simp))
    | cons r ps =>
      exact ih _ (addSegment_units hp (hps q (by simp))) fun p h => hps p (by simp [h])

end Urlstd
