/-
Lemmas on percent-encoding, percent-decoding and the urlencoded format.
-/
import Verif.Lemmas.Utf
import Verif.Lemmas.Str

namespace Urlstd

open Spec

/-! ### UTF-8 against its specification -/

theorem utf8EncodeCP_eq : utf8EncodeCP = Spec.utf8CP := by
  funext c
  unfold utf8EncodeCP Spec.utf8CP
  simp only [show ∀ n, (c < n + 1) = (c ≤ n) from fun n => propext Nat.lt_succ_iff]

theorem utf8Encode_eq (s : Str) (hs : IsStr s) : utf8Encode s = Spec.utf8 s := by
  unfold utf8Encode Spec.utf8 utf8EncodeStrict
  rw [toScalar_eq_combine s hs, utf8EncodeCP_eq]

/-! ### quote -/

theorem flatMap_quoter_safe (safe : Nat → Bool) (bs : Bytes) (h : ∀ b ∈ bs, quoteSafe safe b = true) :
    bs.flatMap (quoter safe) = bs := by
  induction bs with
  | nil => rfl
  | cons b bs ih =>
    have hb : quoter safe b = [b] := by simp [quoter, h b (by simp)]
    rw [List.flatMap_cons, hb, ih (fun c hc => h c (by simp [hc]))]; rfl

theorem quoteFromBytes_eq (safe : Nat → Bool) (bs : Bytes) :
    quoteFromBytes safe bs = bs.flatMap (quoter safe) := by
  unfold quoteFromBytes
  split
  · rename_i h
    rw [flatMap_quoter_safe]
    simpa using h
  · rfl

/-- one byte of `quote`/`quote_plus` output -/
def quotePlus (sap : Bool) (safe : Nat → Bool) (b : Nat) : Str :=
  if sap ∧ b = 0x20 then [c!"+"] else quoter safe b

theorem hexDigitUpper_range (d : Nat) (h : d < 16) :
    (48 ≤ hexDigitUpper d ∧ hexDigitUpper d ≤ 57) ∨ (65 ≤ hexDigitUpper d ∧ hexDigitUpper d ≤ 70) := by
  unfold hexDigitUpper; split <;> omega

theorem quoter_no_space {safe : Nat → Bool} {b : Nat} (hb : b ≠ 0x20) : 0x20 ∉ quoter safe b := by
  unfold quoter
  split
  · simpa using Ne.symm hb
  · unfold pctByte hexDigitUpper
    simp only [List.mem_cons, List.not_mem_nil, or_false]
    split <;> split <;> omega

theorem spaceToPlus_id {s : Str} (h : 0x20 ∉ s) : spaceToPlus s = s := by
  unfold spaceToPlus
  conv => rhs; rw [← List.map_id s]
  apply List.map_congr_left
  intro c hc
  have : c ≠ 0x20 := fun e => h (e ▸ hc)
  simp [this]

theorem alwaysSafe_space : alwaysSafe 0x20 = false := by decide

theorem quoteVia_eq (sap : Bool) (safe : Nat → Bool) (hasSpace : Bool) (bs : Bytes)
    (hsp : 0x20 ∈ bs → hasSpace = true) :
    quoteVia sap safe hasSpace bs = bs.flatMap (quotePlus sap safe) := by
  unfold quoteVia
  split
  · rename_i h
    simp only [Bool.and_eq_true] at h
    rw [quoteFromBytes_eq]
    unfold spaceToPlus
    rw [List.map_flatMap]
    congr 1
    funext b
    by_cases hb : b = 0x20
    · subst hb
      simp [quotePlus, h.1, quoter, quoteSafe]
    · have e1 : quoter (fun c => safe c || c == 0x20) b = quoter safe b := by
        have : (b == 0x20) = false := by simpa using hb
        simp [quoter, quoteSafe, this]
      have e2 : quotePlus sap safe b = quoter safe b := by simp [quotePlus, hb]
      rw [e1, e2]
      exact spaceToPlus_id (quoter_no_space hb)
  · rename_i h
    rw [quoteFromBytes_eq]
    have hc : ∀ b ∈ bs, quoter safe b = quotePlus sap safe b := by
      intro b hb
      unfold quotePlus
      split
      · rename_i h2
        exfalso; apply h
        rw [h2.2] at hb
        simp [h2.1, hsp hb]
      · rfl
    clear h hsp
    induction bs with
    | nil => rfl
    | cons b bs ih =>
      rw [List.flatMap_cons, List.flatMap_cons, hc b (by simp), ih (fun c h => hc c (by simp [h]))]

theorem encodeStrict_utf8 (s : Str) : Encoding.utf8.encodeStrict s = some (utf8EncodeStrict s) := by
  induction s with
  | nil => rfl
  | cons c cs ih => simp [Encoding.encodeStrict, Encoding.enc, ih, utf8EncodeStrict]

theorem space_mem_utf8 {s : Str} (h : 0x20 ∈ utf8EncodeStrict s) : 0x20 ∈ s := by
  simp only [utf8EncodeStrict, List.mem_flatMap] at h
  obtain ⟨c, hc, h⟩ := h
  by_cases h80 : c < 0x80
  · rw [utf8EncodeCP_ascii h80] at h
    simp at h; rw [h]; exact hc
  · have := utf8EncodeCP_nonascii h80 _ h
    omega

/-- `utf8_percent_encode` byte by byte. -/
theorem utf8PercentEncode_eq (s : Str) (safe : Nat → Bool) (sap : Bool) :
    utf8PercentEncode s safe sap = (utf8Encode s).flatMap (quotePlus sap safe) := by
  unfold utf8PercentEncode stringPercentEncode
  simp only [encodeStrict_utf8]
  rw [quoteVia_eq]
  · rfl
  · intro h
    simpa using space_mem_utf8 h

theorem quotePlus_false (safe : Nat → Bool) : quotePlus false safe = quoter safe := by
  funext b; simp [quotePlus]

theorem utf8PercentEncode_false (s : Str) (safe : Nat → Bool) :
    utf8PercentEncode s safe = (utf8Encode s).flatMap (quoter safe) := by
  rw [utf8PercentEncode_eq, quotePlus_false]

theorem hexDigitUpper_eq {d : Nat} (h : d < 16) : hexDigitUpper d = Spec.hexUpper d := by
  have : d = 0 ∨ d = 1 ∨ d = 2 ∨ d = 3 ∨ d = 4 ∨ d = 5 ∨ d = 6 ∨ d = 7 ∨ d = 8 ∨ d = 9 ∨ d = 10 ∨
    d = 11 ∨ d = 12 ∨ d = 13 ∨ d = 14 ∨ d = 15 := by omega
  rcases this with h|h|h|h|h|h|h|h|h|h|h|h|h|h|h|h <;> subst h <;> rfl

theorem pctByte_eq {b : Nat} (h : b < 256) : pctByte b = Spec.pct b := by
  unfold pctByte Spec.pct
  rw [hexDigitUpper_eq (by omega), hexDigitUpper_eq (by omega)]

theorem flatMap_congr_mem {α β : Type} {l : List α} {f g : α → List β} (h : ∀ a ∈ l, f a = g a) :
    l.flatMap f = l.flatMap g := by
  induction l with
  | nil => rfl
  | cons a l ih =>
    rw [List.flatMap_cons, List.flatMap_cons, h a (by simp), ih (fun b hb => h b (by simp [hb]))]

/-! ### percent-decode -/

theorem isHex_ne_percent {a : Nat} (h : isHex a = true) : a ≠ 37 := by
  intro e; subst e; exact absurd h (by decide)

theorem percentDecode_cons_other {x : Nat} (h : x ≠ 37) (rest : Bytes) :
    percentDecode (x :: rest) = x :: percentDecode rest := by
  obtain ⟨h', t, e⟩ := splitOn_cons 37 rest
  unfold percentDecode
  rw [splitOn_other h e, e]
  rfl

theorem percentDecode_cons_percent {rest h' : Bytes} {t : List Bytes} (e : splitOn 37 rest = h' :: t) :
    percentDecode (37 :: rest) = unquoteItem h' ++ t.flatMap unquoteItem := by
  unfold percentDecode
  rw [splitOn_sep, e]
  rfl

theorem percentDecode_of_split {rest h' : Bytes} {t : List Bytes} (e : splitOn 37 rest = h' :: t) :
    percentDecode rest = h' ++ t.flatMap unquoteItem := by
  unfold percentDecode; rw [e]

theorem percentDecode_eq (bs : Bytes) : percentDecode bs = Spec.percentDecode bs := by
  fun_induction Spec.percentDecode bs with
  | case1 a b rest h ih =>
    rw [isHex_spec] at h
    rw [hexVal_spec]
    obtain ⟨h', t, e⟩ := splitOn_cons 37 rest
    have e1 := splitOn_other (isHex_ne_percent h.2) e
    have e2 := splitOn_other (isHex_ne_percent h.1) e1
    rw [percentDecode_cons_percent e2, ← ih, percentDecode_of_split e]
    simp [unquoteItem, h.1, h.2]
  | case2 a b rest h ih =>
    obtain ⟨h', t, e⟩ := splitOn_cons 37 (a :: b :: rest)
    rw [percentDecode_cons_percent e, ← ih, percentDecode_of_split e]
    have hp := splitOn_prefix e
    have : unquoteItem h' = 37 :: h' := by
      unfold unquoteItem
      split
      · rename_i x y r
        rw [List.cons_prefix_cons, List.cons_prefix_cons] at hp
        rw [if_neg]
        simp only [Bool.and_eq_true]
        rw [hp.1, hp.2.1]; exact h
      · rfl
    rw [this]; rfl
  | case3 x rest hx ih =>
    by_cases h37 : x = 37
    · subst h37
      obtain ⟨h', t, e⟩ := splitOn_cons 37 rest
      rw [percentDecode_cons_percent e, ← ih, percentDecode_of_split e]
      have hp := splitOn_prefix e
      have : unquoteItem h' = 37 :: h' := by
        unfold unquoteItem
        split
        · rename_i x y r
          obtain ⟨w, hw⟩ := hp
          exact absurd hw.symm (by
            intro hh
            exact hx x y (r ++ w) rfl (by simpa using hh))
        · rfl
      rw [this]; rfl
    · rw [percentDecode_cons_other h37, ih]
  | case4 => rfl

theorem specPD_other {x : Nat} (h : x ≠ 37) (rest : Bytes) :
    Spec.percentDecode (x :: rest) = x :: Spec.percentDecode rest := by
  rw [← percentDecode_eq, percentDecode_cons_other h, percentDecode_eq]

theorem specPD_triplet {a b : Nat} (ha : isHex a = true) (hb : isHex b = true) (rest : Bytes) :
    Spec.percentDecode (37 :: a :: b :: rest) = (hexVal a * 16 + hexVal b) :: Spec.percentDecode rest := by
  rw [Spec.percentDecode, isHex_spec, if_pos ⟨ha, hb⟩, hexVal_spec]

theorem hexDigitUpper_isHex {d : Nat} (h : d < 16) : isHex (hexDigitUpper d) = true := by
  simp only [isHex, isDigit, Bool.or_eq_true, Bool.and_eq_true, decide_eq_true_eq]
  have := hexDigitUpper_range d h
  omega

theorem hexVal_hexDigitUpper {d : Nat} (h : d < 16) : hexVal (hexDigitUpper d) = d := by
  unfold hexVal hexDigitUpper isDigit
  simp only [Bool.and_eq_true, decide_eq_true_eq]
  split <;> split <;> (try split) <;> omega

theorem specPD_pctByte {b : Nat} (h : b < 256) (rest : Bytes) :
    Spec.percentDecode (pctByte b ++ rest) = b :: Spec.percentDecode rest := by
  show Spec.percentDecode (37 :: hexDigitUpper (b / 16) :: hexDigitUpper (b % 16) :: rest) = _
  rw [specPD_triplet (hexDigitUpper_isHex (by omega)) (hexDigitUpper_isHex (by omega)),
    hexVal_hexDigitUpper (by omega), hexVal_hexDigitUpper (by omega)]
  exact cons_left (by omega) _

theorem specPD_quoter {safe : Nat → Bool} (hp : safe 37 = false) {b : Nat} (h : b < 256) (rest : Bytes) :
    Spec.percentDecode (quoter safe b ++ rest) = b :: Spec.percentDecode rest := by
  unfold quoter
  split
  · rename_i hq
    apply specPD_other
    intro e; subst e
    simp [quoteSafe, hp] at hq
    exact absurd hq (by decide)
  · exact specPD_pctByte h rest

theorem specPD_flatMap_quoter {safe : Nat → Bool} (hp : safe 37 = false) {bs : Bytes} (h : IsBytes bs) :
    Spec.percentDecode (bs.flatMap (quoter safe)) = bs := by
  induction bs with
  | nil => rfl
  | cons b bs ih =>
    rw [List.flatMap_cons, specPD_quoter hp (h b (by simp)), ih (fun c hc => h c (by simp [hc]))]

/-! ### alphabet -/

theorem alwaysSafe_ascii {b : Nat} (h : alwaysSafe b = true) : b < 128 := by
  simp only [alwaysSafe, isAlnum, isAlpha, isDigit, Bool.or_eq_true, Bool.and_eq_true,
    decide_eq_true_eq, List.contains_eq_mem, List.mem_cons, List.not_mem_nil, or_false] at h
  omega

theorem quoteSafe_ascii {safe : Nat → Bool} {b : Nat} (h : quoteSafe safe b = true) : b < 128 := by
  simp only [quoteSafe, Bool.or_eq_true, Bool.and_eq_true, decide_eq_true_eq] at h
  rcases h with h | h
  · exact alwaysSafe_ascii h
  · exact h.1

theorem hexDigitUpper_alwaysSafe {d : Nat} (h : d < 16) : alwaysSafe (hexDigitUpper d) = true := by
  have := hexDigitUpper_range d h
  simp only [alwaysSafe, isAlnum, isAlpha, isDigit, Bool.or_eq_true, Bool.and_eq_true, decide_eq_true_eq]
  omega

/-- every output character of `quoter` is kept or part of an escape -/
theorem mem_quoter {safe : Nat → Bool} {b x : Nat} (hb : b < 256) (hx : x ∈ quoter safe b) :
    (x = b ∧ quoteSafe safe x = true) ∨ x = 37 ∨ (alwaysSafe x = true ∧ isHex x = true) := by
  unfold quoter at hx
  split at hx
  · simp at hx; subst hx; left; exact ⟨rfl, by assumption⟩
  · simp only [pctByte, List.mem_cons, List.not_mem_nil, or_false] at hx
    rcases hx with rfl | rfl | rfl
    · right; left; rfl
    · right; right; exact ⟨hexDigitUpper_alwaysSafe (by omega), hexDigitUpper_isHex (by omega)⟩
    · right; right; exact ⟨hexDigitUpper_alwaysSafe (by omega), hexDigitUpper_isHex (by omega)⟩

theorem quoter_ascii {safe : Nat → Bool} {b x : Nat} (hb : b < 256) (hx : x ∈ quoter safe b) : x < 128 := by
  rcases mem_quoter hb hx with h | h | h
  · exact quoteSafe_ascii h.2
  · omega
  · exact alwaysSafe_ascii h.1

theorem quotePlus_ascii {sap : Bool} {safe : Nat → Bool} {b x : Nat} (hb : b < 256)
    (hx : x ∈ quotePlus sap safe b) : x < 128 := by
  unfold quotePlus at hx
  split at hx
  · simp at hx; omega
  · exact quoter_ascii hb hx

theorem utf8PercentEncode_ascii {s : Str} (hs : IsStr s) (safe : Nat → Bool) (sap : Bool) :
    ∀ x ∈ utf8PercentEncode s safe sap, x < 128 := by
  rw [utf8PercentEncode_eq]
  intro x hx
  rw [List.mem_flatMap] at hx
  obtain ⟨b, hb, hx⟩ := hx
  exact quotePlus_ascii (utf8Encode_bytes s hs b hb) hx

theorem mem_utf8PercentEncode {s : Str} (hs : IsStr s) {safe : Nat → Bool} {x : Nat}
    (hx : x ∈ utf8PercentEncode s safe) : quoteSafe safe x = true ∨ x = 37 := by
  rw [utf8PercentEncode_false, List.mem_flatMap] at hx
  obtain ⟨b, hb, hx⟩ := hx
  rcases mem_quoter (utf8Encode_bytes s hs b hb) hx with h | h | h
  · exact .inl h.2
  · exact .inr h
  · exact .inl (by simp [quoteSafe, h.1])

/-! ### UTF-8 decoding against the Encoding Standard -/

theorem u8_zero (b : Nat) (bs : Bytes) :
    utf8DecodeFrom {} (b :: bs) = (U8.start b).1 ++ utf8DecodeFrom (U8.start b).2 bs := rfl

theorem u8_end (st : U8) (h : st.needed ≠ 0) : utf8DecodeFrom st [] = [0xFFFD] := by
  simp [utf8DecodeFrom, h]

theorem u8_err (st : U8) (h : st.needed ≠ 0) (b : Nat) (hb : ¬ (st.lower ≤ b ∧ b ≤ st.upper))
    (bs : Bytes) : utf8DecodeFrom st (b :: bs) = 0xFFFD :: utf8DecodeFrom {} (b :: bs) := by
  rw [u8_zero, utf8DecodeFrom, U8.byte, if_neg h, if_neg hb]
  rfl

theorem u8_last (st : U8) (h : st.needed = 1) (b : Nat) (hb : st.lower ≤ b ∧ b ≤ st.upper)
    (bs : Bytes) :
    utf8DecodeFrom st (b :: bs) = (st.cp * 64 + (b - 0x80)) :: utf8DecodeFrom {} bs := by
  rw [utf8DecodeFrom, U8.byte, if_neg (by omega), if_pos hb]
  simp only [h, if_true]
  rfl

theorem u8_more (st : U8) (h : 2 ≤ st.needed) (b : Nat) (hb : st.lower ≤ b ∧ b ≤ st.upper)
    (bs : Bytes) :
    utf8DecodeFrom st (b :: bs) =
      utf8DecodeFrom { needed := st.needed - 1, cp := st.cp * 64 + (b - 0x80) } bs := by
  rw [utf8DecodeFrom, U8.byte, if_neg (by omega), if_pos hb]
  have : st.needed ≠ 1 := by omega
  simp only [this, if_false]
  rfl

theorem u8_start1 {b : Nat} (h : b < 0x80) : U8.start b = ([b], {}) := by
  rw [U8.start, if_pos (by omega)]
theorem u8_start2 {b : Nat} (h : 0xC2 ≤ b) (h' : b < 0xE0) :
    U8.start b = ([], { needed := 1, cp := b - 0xC0 }) := by
  rw [U8.start, if_neg (by omega), if_pos (by omega)]
theorem u8_start3 {b : Nat} (h : 0xE0 ≤ b) (h' : b < 0xF0) :
    U8.start b = ([], { needed := 2, cp := b - 0xE0, lower := if b = 0xE0 then 0xA0 else 0x80, upper := if b = 0xED then 0x9F else 0xBF }) := by
  rw [U8.start, if_neg (by omega), if_neg (by omega), if_pos (by omega)]
theorem u8_start4 {b : Nat} (h : 0xF0 ≤ b) (h' : b < 0xF5) :
    U8.start b = ([], { needed := 3, cp := b - 0xF0, lower := if b = 0xF0 then 0x90 else 0x80, upper := if b = 0xF4 then 0x8F else 0xBF }) := by
  rw [U8.start, if_neg (by omega), if_neg (by omega), if_neg (by omega), if_pos (by omega)]
theorem u8_start_bad {b : Nat} (h : 0x80 ≤ b) (h' : b < 0xC2 ∨ 0xF5 ≤ b) :
    U8.start b = ([0xFFFD], {}) := by
  rw [U8.start, if_neg (by omega), if_neg (by omega), if_neg (by omega), if_neg (by omega)]

theorem ok3_bounds {b0 b1 : Nat} : ok3 b0 b1 = true ↔
    (if b0 = 0xE0 then 0xA0 else 0x80) ≤ b1 ∧ b1 ≤ (if b0 = 0xED then 0x9F else 0xBF) := by
  rw [ok3_iff]; split <;> split <;> omega
theorem ok4_bounds {b0 b1 : Nat} : ok4 b0 b1 = true ↔
    (if b0 = 0xF0 then 0x90 else 0x80) ≤ b1 ∧ b1 ≤ (if b0 = 0xF4 then 0x8F else 0xBF) := by
  rw [ok4_iff]; split <;> split <;> omega

theorem utf8Decode_eq (bs : Bytes) : utf8Decode bs = Spec.utf8Decode bs := by
  unfold Spec.utf8Decode
  fun_induction utf8Decode bs with
  | case1 => rfl
  | case2 b0 t0 h ih => rw [u8_zero, u8_start1 h, ih]; rfl
  | case3 b0 t0 h1 h2 ih => rw [u8_zero, u8_start_bad (by omega) (.inl h2), ih]; rfl
  | case4 b0 h1 h2 h3 => rw [u8_zero, u8_start2 (by omega) h3, u8_end _ (by simp)]; rfl
  | case5 b0 h1 h2 h3 b1 t1 hc ih =>
    rw [isCont_iff] at hc
    rw [u8_zero, u8_start2 (by omega) h3, u8_last _ rfl _ (by simp only; omega), ih]; rfl
  | case6 b0 h1 h2 h3 b1 t1 hc ih =>
    rw [isCont_iff] at hc
    rw [u8_zero, u8_start2 (by omega) h3, u8_err _ (by simp) _ (by simp only; omega), ih]; rfl
  | case7 b0 h1 h2 h3 h4 => rw [u8_zero, u8_start3 (by omega) h4, u8_end _ (by simp)]; rfl
  | case8 b0 h1 h2 h3 h4 b1 hc =>
    rw [ok3_bounds] at hc
    rw [u8_zero, u8_start3 (by omega) h4, u8_more _ (by simp) _ hc, u8_end _ (by simp)]; rfl
  | case9 b0 h1 h2 h3 h4 b1 hc b2 t2 hc2 ih =>
    rw [ok3_bounds] at hc
    rw [isCont_iff] at hc2
    rw [u8_zero, u8_start3 (by omega) h4, u8_more _ (by simp) _ hc, u8_last _ rfl _ (by simp only; omega), ih]
    exact cons_left (by simp only; omega) _
  | case10 b0 h1 h2 h3 h4 b1 hc b2 t2 hc2 ih =>
    rw [ok3_bounds] at hc
    rw [isCont_iff] at hc2
    rw [u8_zero, u8_start3 (by omega) h4, u8_more _ (by simp) _ hc, u8_err _ (by simp) _ (by simp only; omega), ih]
    rfl
  | case11 b0 h1 h2 h3 h4 b1 t1 hc ih =>
    rw [ok3_bounds] at hc
    rw [u8_zero, u8_start3 (by omega) h4, u8_err _ (by simp) _ hc, ih]; rfl
  | case12 b0 h1 h2 h3 h4 h5 => rw [u8_zero, u8_start4 (by omega) h5, u8_end _ (by simp)]; rfl
  | case13 b0 h1 h2 h3 h4 h5 b1 hc =>
    rw [ok4_bounds] at hc
    rw [u8_zero, u8_start4 (by omega) h5, u8_more _ (by simp) _ hc, u8_end _ (by simp)]; rfl
  | case14 b0 h1 h2 h3 h4 h5 b1 hc b2 hc2 =>
    rw [ok4_bounds] at hc
    rw [isCont_iff] at hc2
    rw [u8_zero, u8_start4 (by omega) h5, u8_more _ (by simp) _ hc, u8_more _ (by simp) _ (by simp only; omega),
      u8_end _ (by simp)]; rfl
  | case15 b0 h1 h2 h3 h4 h5 b1 hc b2 hc2 b3 t3 hc3 ih =>
    rw [ok4_bounds] at hc
    rw [isCont_iff] at hc2 hc3
    rw [u8_zero, u8_start4 (by omega) h5, u8_more _ (by simp) _ hc, u8_more _ (by simp) _ (by simp only; omega),
      u8_last _ rfl _ (by simp only; omega), ih]
    exact cons_left (by simp only; omega) _
  | case16 b0 h1 h2 h3 h4 h5 b1 hc b2 hc2 b3 t3 hc3 ih =>
    rw [ok4_bounds] at hc
    rw [isCont_iff] at hc2 hc3
    rw [u8_zero, u8_start4 (by omega) h5, u8_more _ (by simp) _ hc, u8_more _ (by simp) _ (by simp only; omega),
      u8_err _ (by simp) _ (by simp only; omega), ih]
    rfl
  | case17 b0 h1 h2 h3 h4 h5 b1 hc b2 t2 hc2 ih =>
    rw [ok4_bounds] at hc
    rw [isCont_iff] at hc2
    rw [u8_zero, u8_start4 (by omega) h5, u8_more _ (by simp) _ hc, u8_err _ (by simp) _ (by simp only; omega), ih]
    rfl
  | case18 b0 h1 h2 h3 h4 h5 b1 t1 hc ih =>
    rw [ok4_bounds] at hc
    rw [u8_zero, u8_start4 (by omega) h5, u8_err _ (by simp) _ hc, ih]; rfl
  | case19 b0 t0 h1 h2 h3 h4 h5 ih => rw [u8_zero, u8_start_bad (by omega) (.inr (by omega)), ih]; rfl

/-! ### application/x-www-form-urlencoded -/

theorem qslItem_eq (b : Bytes) : qslItem b = urlencodedPair b := by
  unfold qslItem urlencodedPair
  rw [splitFirst_eq]
  simp only [utf8Decode_eq, percentDecode_eq, plusToSpace]

theorem parseQsl_of_split {bs h : Bytes} {t : List Bytes} (e : splitOn 38 bs = h :: t) :
    parseQsl bs = (if h = [] then [] else [urlencodedPair h]) ++
      (t.filter fun s => !s.isEmpty).map qslItem := by
  unfold parseQsl
  rw [e]
  by_cases hh : h = []
  · subst hh; simp
  · have : h.isEmpty = false := by simpa using hh
    rw [List.filter_cons, this]
    simp [hh, qslItem_eq]

theorem urlencodedParseFrom_eq (bs : Bytes) : ∀ (acc h : Bytes) (t : List Bytes),
    splitOn 38 bs = h :: t →
    urlencodedParseFrom acc bs = (if acc ++ h = [] then [] else [urlencodedPair (acc ++ h)]) ++
      (t.filter fun s => !s.isEmpty).map qslItem := by
  induction bs with
  | nil =>
    intro acc h t e
    simp [splitOn] at e
    obtain ⟨rfl, rfl⟩ := e
    simp [urlencodedParseFrom]
  | cons b bs ih =>
    intro acc h t e
    obtain ⟨h', t', e'⟩ := splitOn_cons 38 bs
    by_cases hb : b = 38
    · subst hb
      rw [splitOn_sep] at e
      injection e with e1 e2
      subst e1
      rw [urlencodedParseFrom, if_pos rfl, ih [] h' t' e', ← e2, e', List.append_nil, List.nil_append]
      congr 1
      by_cases hh : h' = []
      · subst hh; simp
      · have : h'.isEmpty = false := by simpa using hh
        rw [List.filter_cons, this]
        simp [hh, qslItem_eq]
    · rw [splitOn_other hb e'] at e
      injection e with e1 e2
      subst e1 e2
      rw [urlencodedParseFrom, if_neg hb, ih _ h' t' e', List.append_assoc, List.singleton_append]

theorem parseQsl_eq (bs : Bytes) : parseQsl bs = urlencodedParse bs := by
  obtain ⟨h, t, e⟩ := splitOn_cons 38 bs
  rw [parseQsl_of_split e, urlencodedParse, urlencodedParseFrom_eq bs [] h t e, List.nil_append]

theorem parseQsl_append (a b : Bytes) : parseQsl (a ++ 38 :: b) = parseQsl a ++ parseQsl b := by
  unfold parseQsl
  rw [splitOn_append_gen, List.filter_append, List.map_append]

/-- the characters that `urlencode` does not escape -/
theorem quoteSafe_urlencoded {b : Nat} (hb : b < 256) :
    quoteSafe safeUrlencoded b = (urlencodedKeep b || b == 126) := by
  have : ∀ b, b < 256 → quoteSafe safeUrlencoded b = (urlencodedKeep b || b == 126) := by decide +kernel
  exact this b hb

theorem keep_ascii {b : Nat} (h : (urlencodedKeep b || b == 126) = true) : b < 128 := by
  simp only [urlencodedKeep, isAlnum_spec, isAlnum, isAlpha, isDigit, Bool.or_eq_true, Bool.and_eq_true,
    decide_eq_true_eq, List.contains_eq_mem, List.mem_cons, List.not_mem_nil, or_false,
    beq_iff_eq] at h
  omega

/-- `string_percent_encode(s, SAFE_URLENCODED, space_as_plus=True)` -/
theorem urlencoded_component (s : Str) (hs : IsStr s) :
    stringPercentEncode s safeUrlencoded .utf8 true =
      percentEncode (fun b => urlencodedKeep b || b == 126) true (utf8 s) := by
  show utf8PercentEncode s safeUrlencoded true = _
  rw [utf8PercentEncode_eq, ← utf8Encode_eq s hs]
  unfold percentEncode
  apply flatMap_congr_mem
  intro b hb
  have hb := utf8Encode_bytes s hs b hb
  unfold quotePlus
  split
  · rfl
  · unfold quoter
    rw [quoteSafe_urlencoded hb, pctByte_eq hb]

theorem urlencode_eq (q : List (Str × Str)) (hq : ∀ p ∈ q, IsStr p.1 ∧ IsStr p.2) :
    urlencode q = urlencodedSerialize (fun b => urlencodedKeep b || b == 126) q := by
  induction q with
  | nil => rfl
  | cons p ps ih =>
    have hp := hq p (by simp)
    have ih := ih (fun p hp => hq p (by simp [hp]))
    cases ps with
    | nil =>
      simp only [urlencode, List.map_cons, List.map_nil, joinWith, urlencodedSerialize]
      rw [urlencoded_component _ hp.1, urlencoded_component _ hp.2]
    | cons p' ps' =>
      simp only [urlencode, List.map_cons, joinWith, urlencodedSerialize] at ih ⊢
      rw [ih, urlencoded_component _ hp.1, urlencoded_component _ hp.2]

/-- characters of an urlencoded name or value -/
theorem mem_urlencoded {s : Str} (hs : IsStr s) {x : Nat}
    (hx : x ∈ stringPercentEncode s safeUrlencoded .utf8 true) : x ≠ 38 ∧ x ≠ 61 := by
  change x ∈ utf8PercentEncode s safeUrlencoded true at hx
  rw [utf8PercentEncode_eq, List.mem_flatMap] at hx
  obtain ⟨b, hb, hx⟩ := hx
  have hb := utf8Encode_bytes s hs b hb
  unfold quotePlus at hx
  split at hx
  · simp at hx; omega
  · rcases mem_quoter hb hx with h | h | h
    · obtain ⟨rfl, h⟩ := h
      rw [quoteSafe_urlencoded hb] at h
      constructor <;> (rintro rfl; exact absurd h (by decide))
    · omega
    · constructor <;> (rintro rfl; exact absurd h.1 (by decide))

theorem plusToSpace_urlencoded {bs : Bytes} (hb : IsBytes bs) :
    plusToSpace (bs.flatMap (quotePlus true safeUrlencoded)) =
      bs.flatMap (quoter fun c => c == 0x20 || safeUrlencoded c) := by
  unfold plusToSpace
  rw [List.map_flatMap]
  apply flatMap_congr_mem
  intro b hb'
  have hb := hb b hb'
  by_cases h : b = 0x20
  · subst h; rfl
  · have e : quotePlus true safeUrlencoded b = quoter safeUrlencoded b := by simp [quotePlus, h]
    have e2 : quoter (fun c => c == 0x20 || safeUrlencoded c) b = quoter safeUrlencoded b := by
      have : (b == 0x20) = false := by simpa using h
      simp [quoter, quoteSafe, this]
    rw [e, e2]
    conv => rhs; rw [← List.map_id (quoter safeUrlencoded b)]
    apply List.map_congr_left
    intro x hx
    rw [if_neg]; rfl
    rintro rfl
    rcases mem_quoter hb hx with h | h | h
    · exact absurd h.2 (by decide)
    · omega
    · exact absurd h.1 (by decide)

theorem decode_urlencoded {s : Str} (hs : IsStr s) :
    utf8Decode (percentDecode (plusToSpace (stringPercentEncode s safeUrlencoded .utf8 true))) =
      combineSurrogates s := by
  change utf8Decode (percentDecode (plusToSpace (utf8PercentEncode s safeUrlencoded true))) = _
  rw [utf8PercentEncode_eq, plusToSpace_urlencoded (utf8Encode_bytes s hs), percentDecode_eq,
    specPD_flatMap_quoter (by decide) (utf8Encode_bytes s hs), usv_core s hs]

theorem parseQsl_urlencode (q : List (Str × Str)) (hq : ∀ p ∈ q, IsStr p.1 ∧ IsStr p.2) :
    parseQsl (urlencode q) = q.map fun p => (combineSurrogates p.1, combineSurrogates p.2) := by
  cases q with
  | nil => rfl
  | cons p ps =>
    unfold parseQsl urlencode
    rw [splitOn_joinWith]
    · rw [List.filter_eq_self.2]
      · rw [List.map_map]
        apply List.map_congr_left
        intro x hx
        have hx' := hq x hx
        simp only [Function.comp, qslItem, List.append_assoc, List.singleton_append]
        rw [splitFirst_append (fun h => (mem_urlencoded hx'.1 h).2 rfl), decode_urlencoded hx'.1,
          decode_urlencoded hx'.2]
      · intro s hs
        rw [List.mem_map] at hs
        obtain ⟨x, _, rfl⟩ := hs
        simp
    · simp
    · intro s hs
      rw [List.mem_map] at hs
      obtain ⟨x, hx, rfl⟩ := hs
      have hx' := hq x hx
      simp only [List.mem_append, List.mem_cons, List.not_mem_nil, or_false]
      rintro ((h | h) | h)
      · exact (mem_urlencoded hx'.1 h).1 rfl
      · exact absurd h (by decide)
      · exact (mem_urlencoded hx'.2 h).1 rfl

theorem urlencode_ascii (q : List (Str × Str)) (hq : ∀ p ∈ q, IsStr p.1 ∧ IsStr p.2) :
    ∀ x ∈ urlencode q, x < 128 := by
  have hj : ∀ (ps : List Str), (∀ p ∈ ps, ∀ x ∈ p, x < 128) → ∀ x ∈ joinWith u!"&" ps, x < 128 := by
    intro ps
    induction ps with
    | nil => simp [joinWith]
    | cons p ps ih =>
      intro h
      cases ps with
      | nil => simpa [joinWith] using h
      | cons q qs =>
        intro x hx
        simp only [joinWith, List.mem_append, List.mem_singleton] at hx
        rcases hx with (hx | hx) | hx
        · exact h p (by simp) x hx
        · omega
        · exact ih (fun r hr => h r (by simp [hr])) x hx
  unfold urlencode
  apply hj
  intro p hp x hx
  rw [List.mem_map] at hp
  obtain ⟨y, hy, rfl⟩ := hp
  have hy := hq y hy
  simp only [List.mem_append, List.mem_singleton] at hx
  rcases hx with (hx | hx) | hx
  · exact utf8PercentEncode_ascii hy.1 safeUrlencoded true x hx
  · omega
  · exact utf8PercentEncode_ascii hy.2 safeUrlencoded true x hx

end Urlstd
