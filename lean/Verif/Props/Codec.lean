/-
Properties C01-C09: text codecs, percent-encoding, application/x-www-form-urlencoded.
-/
import Verif.Lemmas.Percent

namespace Urlstd.Props

open Spec

/-! ### C01 -/

/-- C01. `utf8_decode(utf8_encode(s))` is `s` with surrogate pairs combined and lone surrogates
replaced. -/
theorem C01_utf8_round_trip (s : Str) (hs : IsStr s) :
    utf8Decode (utf8Encode s) = combineSurrogates s :=
  usv_core s hs

/-- C01, second half: identity on strings without surrogates. -/
theorem C01_utf8_round_trip_scalar (s : Str) (hs : IsScalarStr s) :
    utf8Decode (utf8Encode s) = s := by
  rw [usv_core s hs.isStr, combine_of_scalar s hs]

/-- `utf8_encode` is the UTF-8 encoding of the combined string (so that C01 is not about two
functions that merely invert each other). -/
theorem C01_utf8_encode_is_utf8 (s : Str) (hs : IsStr s) : utf8Encode s = Spec.utf8 s :=
  utf8Encode_eq s hs

-- hypotheses are met by a string with a lone surrogate, a pair and a supplementary character
example : IsStr [0x61, 0xD83C, 0xD83C, 0xDF08, 0x1F308, 0xDC00] := by
  intro c hc; simp at hc; omega
example : utf8Decode (utf8Encode [0x61, 0xD83C, 0xD83C, 0xDF08, 0x1F308, 0xDC00]) =
    [0x61, 0xFFFD, 0x1F308, 0x1F308, 0xFFFD] := by decide +kernel
example : IsScalarStr [0x61, 0xE9, 0x20AC, 0x1F308] := by
  intro c hc; simp only [Surrogate]; simp at hc; omega

/-! ### C02 -/

/-- C02. The result of `utf8_decode` consists of scalar values. -/
theorem C02_utf8_decode_scalar (b : Bytes) : IsScalarStr (utf8Decode b) :=
  utf8Decode_isScalar b

/-- C02. Encoding and decoding the result again changes nothing. -/
theorem C02_utf8_decode_stable (b : Bytes) : utf8Decode (utf8Encode (utf8Decode b)) = utf8Decode b :=
  C01_utf8_round_trip_scalar _ (utf8Decode_isScalar b)

/-- C02. `utf8_decode` is the Encoding Standard's "UTF-8 decode without BOM" on every byte sequence. -/
theorem C02_utf8_decode_is_standard (b : Bytes) : utf8Decode b = Spec.utf8Decode b :=
  utf8Decode_eq b

-- an ill-formed sequence: truncated, overlong and surrogate bytes
example : utf8Decode [0x61, 0xE2, 0x82, 0x62, 0xC0, 0x80, 0xED, 0xA0, 0x80, 0xF0, 0x9F] =
    [0x61, 0xFFFD, 0x62, 0xFFFD, 0xFFFD, 0xFFFD, 0xFFFD, 0xFFFD, 0xFFFD] := by decide +kernel

/-! ### C03 -/

/-- Text built from unescaped characters, '+' for a space, and upper-case escapes. -/
inductive Escaped (safe : Nat → Bool) (sap : Bool) : Str → Prop
  | nil : Escaped safe sap []
  | keep {c : Nat} {t : Str} : c < 128 → (Spec.isAlnum c = true ∨ c ∈ u!"_.-~" ∨ safe c = true) →
      Escaped safe sap t → Escaped safe sap (c :: t)
  | plus {t : Str} : sap = true → Escaped safe sap t → Escaped safe sap (c!"+" :: t)
  | esc {b : Nat} {t : Str} : b < 256 → Escaped safe sap t →
      Escaped safe sap (c!"%" :: hexUpper (b / 16) :: hexUpper (b % 16) :: t)

/-- C03. The output alphabet of `utf8_percent_encode`. -/
theorem C03_percent_encode_alphabet (s : Str) (hs : IsStr s) (safe : Nat → Bool) (sap : Bool) :
    Escaped safe sap (utf8PercentEncode s safe sap) := by
  rw [utf8PercentEncode_eq]
  have hb := utf8Encode_bytes s hs
  generalize utf8Encode s = bs at hb
  induction bs with
  | nil => exact .nil
  | cons b bs ih =>
    have ih := ih (fun c hc => hb c (by simp [hc]))
    have hb := hb b (by simp)
    rw [List.flatMap_cons]
    unfold quotePlus
    split
    · rename_i h
      exact .plus h.1 ih
    · unfold quoter
      split
      · rename_i h
        refine .keep (quoteSafe_ascii h) ?_ ih
        simp only [quoteSafe, alwaysSafe, Bool.or_eq_true, Bool.and_eq_true, decide_eq_true_eq,
          List.contains_eq_mem] at h
        rcases h with (h | h) | h
        · exact .inl h
        · exact .inr (.inl h)
        · exact .inr (.inr h.2)
      · rw [pctByte_eq hb]
        exact .esc hb ih

/-- C03, exact form: the output is determined byte by byte from the UTF-8 encoding. -/
theorem C03_percent_encode_exact (s : Str) (hs : IsStr s) (safe : Nat → Bool) (sap : Bool) :
    utf8PercentEncode s safe sap =
      percentEncode (fun b => decide (b < 128) && (Spec.isAlnum b || u!"_.-~".contains b || safe b)) sap
        (Spec.utf8 s) := by
  rw [utf8PercentEncode_eq, ← utf8Encode_eq s hs]
  apply flatMap_congr_mem
  intro b hb
  have hb := utf8Encode_bytes s hs b hb
  unfold quotePlus
  split
  · rfl
  · unfold quoter
    rw [pctByte_eq hb]
    have : quoteSafe safe b =
        (decide (b < 128) && (Spec.isAlnum b || u!"_.-~".contains b || safe b)) := by
      unfold quoteSafe
      by_cases h : b < 128
      · simp [h, alwaysSafe, isAlnum_spec]
      · have : alwaysSafe b = false := by
          cases h' : alwaysSafe b with
          | false => rfl
          | true => exact absurd (alwaysSafe_ascii h') h
        simp [h, this]
    rw [this]

example : utf8PercentEncode u!"a b/é%~" (fun c => c == c!"/") true = u!"a+b/%C3%A9%25~" := by
  decide +kernel

/-! ### C04 -/

/-- C04. Percent-decoding undoes percent-encoding when '%' is not safe. -/
theorem C04_percent_decode_encode (s : Str) (hs : IsStr s) (safe : Nat → Bool)
    (hsafe : safe c!"%" = false) :
    stringPercentDecode (utf8PercentEncode s safe) = utf8Encode s := by
  unfold stringPercentDecode
  rw [utf8Encode_ascii (utf8PercentEncode_ascii hs safe false), percentDecode_eq,
    utf8PercentEncode_false, specPD_flatMap_quoter hsafe (utf8Encode_bytes s hs)]

-- the hypothesis holds of the component percent-encode set
example : safeComponent c!"%" = false := by decide
-- and it is needed: with '%' safe "%41" is not recovered
example : stringPercentDecode (utf8PercentEncode u!"%41" (fun _ => true)) ≠ utf8Encode u!"%41" := by
  decide +kernel

/-! ### C05 -/

/-- C05. Percent-encoding is idempotent when '%' is safe. -/
theorem C05_percent_encode_idempotent (s : Str) (hs : IsStr s) (safe : Nat → Bool)
    (hsafe : safe c!"%" = true) :
    utf8PercentEncode (utf8PercentEncode s safe) safe = utf8PercentEncode s safe := by
  have hall : ∀ b ∈ utf8PercentEncode s safe, quoteSafe safe b = true := by
    intro b hb
    rcases mem_utf8PercentEncode hs hb with h | h
    · exact h
    · subst h; simp [quoteSafe, hsafe]
  conv => lhs; rw [utf8PercentEncode_false]
  rw [utf8Encode_ascii (utf8PercentEncode_ascii hs safe false), flatMap_quoter_safe safe _ hall]

-- all sets the URL parser uses contain '%'
example : safeC0 c!"%" ∧ safeFragment c!"%" ∧ safeQuery c!"%" ∧ safeSpecialQuery c!"%" ∧
    safePath c!"%" ∧ safeUserinfo c!"%" := by decide

/-! ### C06 -/

/-- C06. `string_percent_decode` is the standard's percent-decode of the UTF-8 encoding. -/
theorem C06_percent_decode_is_standard (s : Str) (hs : IsStr s) :
    stringPercentDecode s = Spec.percentDecode (Spec.utf8 s) := by
  unfold stringPercentDecode
  rw [percentDecode_eq, utf8Encode_eq s hs]

/-- C06. Without a triplet `%XX` nothing changes. -/
theorem C06_percent_decode_no_triplet (s : Str)
    (h : ∀ (p t : Bytes) (a b : Nat), utf8Encode s = p ++ c!"%" :: a :: b :: t →
      ¬ (Spec.isHex a = true ∧ Spec.isHex b = true)) :
    stringPercentDecode s = utf8Encode s := by
  unfold stringPercentDecode
  rw [percentDecode_eq]
  generalize utf8Encode s = bs at h
  fun_induction Spec.percentDecode bs with
  | case1 a b rest hx ih => exact absurd hx (h [] rest a b rfl)
  | case2 a b rest hx ih =>
    rw [ih]
    intro p t a' b' e
    exact h (37 :: p) t a' b' (by rw [e]; rfl)
  | case3 x rest hx ih =>
    rw [ih]
    intro p t a' b' e
    exact h (x :: p) t a' b' (by rw [e]; rfl)
  | case4 => rfl

example : stringPercentDecode u!"a%4g%é%zz" = utf8Encode u!"a%4g%é%zz" := by decide +kernel
example : stringPercentDecode u!"%41%%42%4" = u!"A%B%4" := by decide +kernel

/-! ### C07 -/

/-- C07. `parse_qsl` undoes `urlencode`. -/
theorem C07_parse_qsl_urlencode (pairs : List (Str × Str))
    (h : ∀ p ∈ pairs, IsStr p.1 ∧ IsStr p.2) :
    parseQsl (utf8Encode (urlencode pairs)) =
      pairs.map fun p => (combineSurrogates p.1, combineSurrogates p.2) := by
  rw [utf8Encode_ascii (urlencode_ascii pairs h), parseQsl_urlencode pairs h]

/-- C07 for pairs without surrogates. -/
theorem C07_parse_qsl_urlencode_scalar (pairs : List (Str × Str))
    (h : ∀ p ∈ pairs, IsScalarStr p.1 ∧ IsScalarStr p.2) :
    parseQsl (utf8Encode (urlencode pairs)) = pairs := by
  rw [C07_parse_qsl_urlencode pairs (fun p hp => ⟨(h p hp).1.isStr, (h p hp).2.isStr⟩)]
  conv => rhs; rw [← List.map_id pairs]
  apply List.map_congr_left
  intro p hp
  rw [combine_of_scalar _ (h p hp).1, combine_of_scalar _ (h p hp).2]
  rfl

example : parseQsl (utf8Encode (urlencode [(u!"a&=", u!"+ %41é"), ([], []), (u!"x", [])])) =
    [(u!"a&=", u!"+ %41é"), ([], []), (u!"x", [])] := by decide +kernel

/-! ### C08 -/

/-- C08. `parse_qsl` is the standard's application/x-www-form-urlencoded parser. -/
theorem C08_parse_qsl_is_standard (b : Bytes) : parseQsl b = urlencodedParse b :=
  parseQsl_eq b

/-- C08. `parse_qsl(a + b"&" + b) == parse_qsl(a) + parse_qsl(b)`. -/
theorem C08_parse_qsl_append (a b : Bytes) : parseQsl (a ++ u!"&" ++ b) = parseQsl a ++ parseQsl b := by
  rw [List.append_assoc]; exact parseQsl_append a b

/-- C08. Empty sequences are ignored. -/
theorem C08_parse_qsl_empty : parseQsl [] = [] ∧
    ∀ a b : Bytes, parseQsl (a ++ u!"&&" ++ b) = parseQsl (a ++ u!"&" ++ b) := by
  refine ⟨rfl, fun a b => ?_⟩
  have e1 : a ++ u!"&&" ++ b = a ++ u!"&" ++ (u!"" ++ u!"&" ++ b) := by simp
  rw [e1, C08_parse_qsl_append, C08_parse_qsl_append, C08_parse_qsl_append]
  rfl

example : parseQsl u!"a=b=c&&d&=e&%41+=%zz" =
    [(u!"a", u!"b=c"), (u!"d", []), ([], u!"e"), (u!"A ", u!"%zz")] := by decide +kernel

/-! ### C09 -/

/-- C09 is false: `~` is left unescaped (`urllib.parse.quote` treats it as always safe), whereas
the application/x-www-form-urlencoded percent-encode set contains it. -/
theorem C09_false_tilde : urlencode [(u!"~", [])] = u!"~=" ∧
    urlencodedSerialize urlencodedKeep [(u!"~", [])] = u!"%7E=" := by decide +kernel

/-- what `urlencode` does on every input: the standard's serializer with `~` unescaped as well -/
theorem C09_urlencode_exact (pairs : List (Str × Str)) (h : ∀ p ∈ pairs, IsStr p.1 ∧ IsStr p.2) :
    urlencode pairs = urlencodedSerialize (fun b => urlencodedKeep b || b == c!"~") pairs :=
  urlencode_eq pairs h

theorem tilde_mem_utf8 {s : Str} (h : 126 ∈ Spec.utf8 s) : 126 ∈ s := by
  unfold Spec.utf8 at h
  rw [List.mem_flatMap] at h
  obtain ⟨c, hc, h⟩ := h
  have hc126 : c = 126 := by
    rw [← utf8EncodeCP_eq] at h
    by_cases h80 : c < 0x80
    · rw [utf8EncodeCP_ascii h80] at h; simp at h; exact h.symm
    · have := utf8EncodeCP_nonascii h80 _ h; omega
  subst hc126
  clear h
  fun_induction combineSurrogates s with
  | case1 => exact hc
  | case2 a h => simp at hc
  | case3 a h => exact hc
  | case4 a b rest h ih =>
    rcases List.mem_cons.1 hc with hc | hc
    · omega
    · simp [ih hc]
  | case5 a b rest h1 h2 ih =>
    rcases List.mem_cons.1 hc with hc | hc
    · omega
    · exact List.mem_cons_of_mem _ (ih hc)
  | case6 a b rest h1 h2 ih =>
    rcases List.mem_cons.1 hc with hc | hc
    · simp [hc]
    · exact List.mem_cons_of_mem _ (ih hc)

/-- C09 (partial: for pairs without '~', see `C09_false_tilde`). `urlencode` is the standard's
application/x-www-form-urlencoded serializer. -/
theorem C09_urlencode_is_standard_partial (pairs : List (Str × Str))
    (h : ∀ p ∈ pairs, IsStr p.1 ∧ IsStr p.2) (ht : ∀ p ∈ pairs, c!"~" ∉ p.1 ∧ c!"~" ∉ p.2) :
    urlencode pairs = urlencodedSerialize urlencodedKeep pairs := by
  rw [urlencode_eq pairs h]
  have hc : ∀ s : Str, c!"~" ∉ s →
      percentEncode (fun b => urlencodedKeep b || b == 126) true (Spec.utf8 s) =
        percentEncode urlencodedKeep true (Spec.utf8 s) := by
    intro s hs
    apply flatMap_congr_mem
    intro b hb
    have : (b == 126) = false := by
      simp only [beq_eq_false_iff_ne]
      rintro rfl
      exact hs (tilde_mem_utf8 hb)
    simp [this]
  clear h
  induction pairs with
  | nil => rfl
  | cons p ps ih =>
    have hp := ht p (by simp)
    have ih := ih (fun p hp => ht p (by simp [hp]))
    cases ps with
    | nil => simp only [urlencodedSerialize]; rw [hc _ hp.1, hc _ hp.2]
    | cons q qs => simp only [urlencodedSerialize] at ih ⊢; rw [ih, hc _ hp.1, hc _ hp.2]

example : urlencode [(u!"a b", u!"*-._!é"), (u!"", u!"&=")] = u!"a+b=*-._%21%C3%A9&=%26%3D" := by
  decide +kernel

end Urlstd.Props
