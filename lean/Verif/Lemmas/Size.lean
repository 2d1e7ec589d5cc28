/-
Lengths: how many characters decoding and encoding give.
-/
import Verif.Lemmas.Percent
import Verif.Lemmas.Origin
import Verif.Spec.Anatomy

set_option linter.unusedVariables false

namespace Urlstd

open Spec (IsStr IsScalarStr Surrogate combineSurrogates utf8CP)

/-! ### Decoding -/

theorem utf8Decode_cont {b : Nat} (h : isCont b = true) (t : Bytes) : utf8Decode (b :: t) = 0xFFFD :: utf8Decode t := by
  rw [isCont_iff] at h
  conv => lhs; unfold utf8Decode
  rw [if_neg (by omega), if_pos (by omega)]

theorem ok3_cont {a b : Nat} (h : ok3 a b = true) : isCont b = true := by
  rw [ok3_iff] at h
  rw [isCont_iff]
  omega

theorem ok4_cont {a b : Nat} (h : ok4 a b = true) : isCont b = true := by
  rw [ok4_iff] at h
  rw [isCont_iff]
  omega

/-- one more byte in front gives at most one more character -/
theorem decode_cons_length (x : Nat) (bs : Bytes) : (utf8Decode (x :: bs)).length ≤ (utf8Decode bs).length + 1 := by
  conv => lhs; unfold utf8Decode
  split
  · simp
  split
  · simp
  split
  · split
    · simp
    · split
      · next h => rw [utf8Decode_cont h]; simp
      · simp
  split
  · split
    · simp
    · split
      · next h =>
        rw [utf8Decode_cont (ok3_cont h)]
        split
        · simp
        · split
          · next h => rw [utf8Decode_cont h]; simp
          · simp
      · simp
  split
  · split
    · simp
    · split
      · next h =>
        rw [utf8Decode_cont (ok4_cont h)]
        split
        · simp
        · split
          · next h =>
            rw [utf8Decode_cont h]
            split
            · simp
            · split
              · next h => rw [utf8Decode_cont h]; simp
              · simp
          · simp
      · simp
  · simp

/-- the number of characters is at most that of the bytes -/
theorem decode_length (bs : Bytes) : (utf8Decode bs).length ≤ bs.length := by
  induction bs with
  | nil => simp [utf8Decode]
  | cons x bs ih =>
    have := decode_cons_length x bs
    rw [List.length_cons]
    omega

theorem u8_lower {st : Spec.U8} (h : 0x80 ≤ st.lower) (b : Nat) : 0x80 ≤ (st.byte b).2.lower := by
  have hs : ∀ b, 0x80 ≤ (Spec.U8.start b).2.lower := by
    intro b
    unfold Spec.U8.start
    repeat' split
    all_goals (dsimp only; try split) <;> omega
  unfold Spec.U8.byte
  split
  · exact hs b
  split
  · dsimp only
    split <;> simp
  · exact hs b

theorem u8_cut (a b : Bytes) (x : Nat) (hx : x < 0x80) : ∀ st : Spec.U8, 0x80 ≤ st.lower →
    Spec.utf8DecodeFrom st (a ++ x :: b) = Spec.utf8DecodeFrom st a ++ x :: Spec.utf8DecodeFrom {} b := by
  induction a with
  | nil =>
    intro st hst
    have e : Spec.U8.start x = ([x], {}) := u8_start1 hx
    simp only [List.nil_append, Spec.utf8DecodeFrom, Spec.U8.byte]
    by_cases h0 : st.needed = 0
    · simp [h0, e]
    · rw [if_neg h0, if_neg h0, if_neg (by omega), e]
      rfl
  | cons y a ih =>
    intro st hst
    simp only [List.cons_append, Spec.utf8DecodeFrom]
    rw [ih _ (u8_lower hst y), List.append_assoc]

/-- decoding can be cut at an ASCII character -/
theorem decode_cut (a b : Bytes) {x : Nat} (hx : x < 0x80) : utf8Decode (a ++ x :: b) = utf8Decode a ++ x :: utf8Decode b := by
  rw [utf8Decode_eq, utf8Decode_eq, utf8Decode_eq]
  exact u8_cut a b x hx {} (by decide)

/-- a percent sign that is not followed by two digits -/
theorem specPD_lone {x : Bytes} (h : ∀ a b r, x = a :: b :: r → ¬ (isHex a = true ∧ isHex b = true)) :
    Spec.percentDecode (37 :: x) = 37 :: Spec.percentDecode x := by
  match x with
  | [] => rfl
  | [a] => rfl
  | a :: b :: r =>
    rw [Spec.percentDecode, isHex_spec, if_neg (h a b r rfl)]

/-- so can percent-decoding, if it is not a digit or a percent sign -/
theorem specPD_cut (a b : Bytes) {x : Nat} (h1 : x ≠ 37) (h2 : isHex x = false) :
    Spec.percentDecode (a ++ x :: b) = Spec.percentDecode a ++ x :: Spec.percentDecode b := by
  fun_induction Spec.percentDecode a with
  | case1 a1 a2 rest hx ih =>
    simp only [List.cons_append]
    rw [specPD_triplet hx.1 hx.2, ih, hexVal_spec]
  | case2 a1 a2 rest hx ih =>
    simp only [List.cons_append] at ih ⊢
    rw [← ih]
    refine specPD_lone ?_
    intro a b r e
    injection e with e1 e2
    injection e2 with e2 e3
    rw [← e1, ← e2]
    exact hx
  | case3 y rest hne ih =>
    simp only [List.cons_append]
    rw [← ih]
    by_cases hy : y = 37
    · subst hy
      refine specPD_lone ?_
      rintro a c r e ⟨ha, hc⟩
      match rest, hne with
      | [], _ =>
        injection e with e1 e2
        rw [← e1, h2] at ha
        cases ha
      | [r], _ =>
        injection e with e1 e2
        injection e2 with e2 e3
        rw [← e2, h2] at hc
        cases hc
      | r1 :: r2 :: rest, hne => exact hne r1 r2 rest rfl rfl
    · exact specPD_other hy _
  | case4 => exact specPD_other h1 b

/-- the number of characters that a text in a query stands for -/
def shown (q : Bytes) : Nat := (utf8Decode (percentDecode (plusToSpace q))).length

theorem shown_cut (a b : Bytes) {x : Nat} (hx : x = 38 ∨ x = 61) : shown (a ++ x :: b) = shown a + shown b + 1 := by
  have e : plusToSpace (a ++ x :: b) = plusToSpace a ++ x :: plusToSpace b := by
    rcases hx with rfl | rfl <;> simp [plusToSpace]
  have h1 : x ≠ 37 := by omega
  have h2 : isHex x = false := by rcases hx with rfl | rfl <;> decide
  unfold shown
  rw [e, percentDecode_eq, percentDecode_eq, percentDecode_eq, specPD_cut _ _ h1 h2, decode_cut _ _ (by omega)]
  simp
  omega

theorem mem_cut {x : Nat} {s : Str} (h : x ∈ s) : ∃ a b, s = a ++ x :: b ∧ x ∉ a := by
  induction s with
  | nil => cases h
  | cons c s ih =>
    by_cases hc : c = x
    · exact ⟨[], s, by rw [hc]; rfl, by simp⟩
    · obtain ⟨a, b, e, ha⟩ := ih ((List.mem_cons.1 h).resolve_left (Ne.symm hc))
      exact ⟨c :: a, b, by rw [e]; rfl, by simp [ha, Ne.symm hc]⟩

/-- the characters in a list of pairs, and one for each pair -/
def weight (l : List (Str × Str)) : Nat := (l.map fun p => p.1.length + p.2.length + 1).sum

theorem weight_append (l m : List (Str × Str)) : weight (l ++ m) = weight l + weight m := by simp [weight]

theorem weight_item (q : Bytes) : weight [qslItem q] ≤ shown q + 1 := by
  have e : weight [qslItem q] = shown (splitFirst 61 q).1 + shown (splitFirst 61 q).2 + 1 := by simp [weight, qslItem, shown]
  rw [e]
  by_cases h : 61 ∈ q
  · obtain ⟨a, b, rfl, ha⟩ := mem_cut h
    rw [splitFirst_some ha, shown_cut a b (.inr rfl)]
    dsimp only
    omega
  · rw [splitFirst_no_sep h]
    have : shown [] = 0 := rfl
    dsimp only
    omega

/-- the pairs of a query contain at most as many characters as the query -/
theorem weight_parseQsl (q : Bytes) : weight (parseQsl q) ≤ shown q + 1 := by
  generalize hn : q.length = n
  induction n using Nat.strongRecOn generalizing q with
  | ind n ih =>
    by_cases h : 38 ∈ q
    · obtain ⟨a, b, rfl, ha⟩ := mem_cut h
      rw [parseQsl_append, weight_append, shown_cut a b (.inl rfl)]
      have h1 := ih a.length (by rw [← hn, List.length_append, List.length_cons]; omega) a rfl
      have h2 := ih b.length (by rw [← hn, List.length_append, List.length_cons]; omega) b rfl
      omega
    · unfold parseQsl
      rw [splitOn_no_sep h]
      by_cases hq : q = []
      · subst hq; simp [weight]
      · have : ([q].filter fun s => !s.isEmpty) = [q] := by simp [hq]
        rw [this]
        exact weight_item q

/-! ### Decoding what was encoded -/

theorem specPD_percentEncode {keep : Nat → Bool} {bs : Bytes} (h : ∀ b ∈ bs, b < 256 ∧ b ≠ 37) (x : Bytes) :
    Spec.percentDecode (Spec.percentEncode keep false bs ++ x) = bs ++ Spec.percentDecode x := by
  induction bs with
  | nil => rfl
  | cons b bs ih =>
    obtain ⟨h1, h2⟩ := h b (by simp)
    have ih := ih fun c hc => h c (by simp [hc])
    have e : Spec.percentEncode keep false (b :: bs) = (if keep b then [b] else Spec.pct b) ++ Spec.percentEncode keep false bs := by
      simp [Spec.percentEncode]
    rw [e, List.append_assoc]
    split
    · rw [List.singleton_append, specPD_other h2, ih]; rfl
    · rw [← pctByte_eq h1, specPD_pctByte h1, ih]; rfl

/-- a character in a query as it is stored, with "+" read as a space -/
def encChar (keep : Nat → Bool) (plus : Bool) (c : Nat) : Bytes :=
  if plus = true ∧ c = 43 then [32] else Spec.percentEncode keep false (utf8CP c)

theorem utf8CP_ne_percent {c : Nat} (hc : c ≠ 37) : 37 ∉ utf8CP c := by
  rw [← utf8EncodeCP_eq]
  by_cases h : c < 0x80
  · rw [utf8EncodeCP_ascii h]; simp [Ne.symm hc]
  · intro hm
    have := utf8EncodeCP_nonascii h 37 hm
    omega

theorem utf8CP_ascii {c : Nat} (h : c < 0x80) : utf8CP c = [c] := by rw [← utf8EncodeCP_eq]; exact utf8EncodeCP_ascii h

theorem encChar_hex {keep : Nat → Bool} {plus : Bool} (hk : ∀ c, isHex c = true → keep c = true) {c : Nat} (h : isHex c = true) :
    encChar keep plus c = [c] := by
  have h' := isHex_iff.1 h
  unfold encChar
  rw [if_neg (by omega), utf8CP_ascii (by omega)]
  simp [Spec.percentEncode, hk c h]

/-- if the encoded text begins with a hexadecimal digit, the text does -/
theorem encChar_head {keep : Nat → Bool} {plus : Bool} (hk : ∀ c, isHex c = true → keep c = true) {c a : Nat} {r x : Bytes}
    (e : encChar keep plus c ++ x = a :: r) (ha : isHex a = true) : c = a ∧ r = x := by
  have ha' := isHex_iff.1 ha
  by_cases hc : isHex c = true
  · rw [encChar_hex hk hc] at e
    injection e with e1 e2
    exact ⟨e1, e2.symm⟩
  exfalso
  unfold encChar at e
  split at e
  · injection e with e1 e2; omega
  · have hne : ∃ b bs, utf8CP c = b :: bs ∧ (b = c ∨ 0x80 ≤ b) := by
      by_cases h : c < 0x80
      · exact ⟨c, [], utf8CP_ascii h, .inl rfl⟩
      · have := utf8EncodeCP_nonascii h
        rw [utf8EncodeCP_eq] at this
        cases hu : utf8CP c with
        | nil =>
          exfalso
          unfold utf8CP at hu
          repeat' split at hu
          all_goals cases hu
        | cons b bs => exact ⟨b, bs, rfl, .inr (this b (by rw [hu]; simp))⟩
    obtain ⟨b, bs, hu, hb⟩ := hne
    have e' : Spec.percentEncode keep false (b :: bs) = (if keep b then [b] else Spec.pct b) ++ Spec.percentEncode keep false bs := by
      simp [Spec.percentEncode]
    rw [hu, e', List.append_assoc] at e
    split at e
    · injection e with e1 e2
      rcases hb with hb | hb
      · rw [← e1, hb] at ha; exact hc ha
      · omega
    · injection e with e1 e2
      omega

/-- decoding an encoded text gives at most as many characters as there were -/
theorem decoded_encoded_length {keep : Nat → Bool} {plus : Bool} (hk : ∀ c, isHex c = true → keep c = true) (h37 : keep 37 = true)
    (w : Str) (hw : IsScalarStr w) :
    (utf8Decode (Spec.percentDecode (w.flatMap (encChar keep plus)))).length ≤ w.length := by
  have e37 : encChar keep plus 37 = [37] := by
    unfold encChar
    rw [if_neg (by omega), utf8CP_ascii (by decide)]
    simp [Spec.percentEncode, h37]
  have lone : ∀ rest : Str, (∀ a b r, rest = a :: b :: r → ¬ (isHex a = true ∧ isHex b = true)) →
      Spec.percentDecode ((37 :: rest).flatMap (encChar keep plus)) =
        37 :: Spec.percentDecode (rest.flatMap (encChar keep plus)) := by
    intro rest hr
    rw [List.flatMap_cons, e37]
    refine specPD_lone ?_
    rintro a b r e ⟨ha, hb⟩
    cases rest with
    | nil => cases e
    | cons c rest =>
      rw [List.flatMap_cons] at e
      change encChar keep plus c ++ rest.flatMap (encChar keep plus) = a :: b :: r at e
      obtain ⟨h1, h2⟩ := encChar_head hk e ha
      cases rest with
      | nil => cases h2
      | cons d rest =>
        rw [List.flatMap_cons] at h2
        obtain ⟨h3, -⟩ := encChar_head hk h2.symm hb
        exact hr c d rest rfl ⟨h1 ▸ ha, h3 ▸ hb⟩
  fun_induction Spec.percentDecode w with
  | case1 a b rest hx ih =>
    have ih := ih fun c hc => hw c (by simp [hc])
    rw [List.flatMap_cons, List.flatMap_cons, List.flatMap_cons, e37, encChar_hex hk hx.1, encChar_hex hk hx.2]
    simp only [List.cons_append, List.nil_append]
    rw [specPD_triplet hx.1 hx.2]
    have := decode_cons_length (hexVal a * 16 + hexVal b) (Spec.percentDecode (rest.flatMap (encChar keep plus)))
    simp only [List.length_cons]
    omega
  | case2 a b rest hx ih =>
    have ih := ih fun c hc => hw c (List.mem_cons_of_mem _ hc)
    rw [lone (a :: b :: rest) (by intro a' b' r e; cases e; exact hx)]
    have := decode_cons_length 37 (Spec.percentDecode ((a :: b :: rest).flatMap (encChar keep plus)))
    rw [List.length_cons]
    omega
  | case3 x rest hne ih =>
    have ih := ih fun c hc => hw c (List.mem_cons_of_mem _ hc)
    by_cases hx : x = 37
    · subst hx
      rw [lone rest (by intro a b r e; exact absurd e (fun e => hne a b r rfl e))]
      have := decode_cons_length 37 (Spec.percentDecode (rest.flatMap (encChar keep plus)))
      rw [List.length_cons]
      omega
    · rw [List.flatMap_cons, List.length_cons]
      unfold encChar
      split
      · rw [List.singleton_append, specPD_other (by decide)]
        have := decode_cons_length 32 (Spec.percentDecode (rest.flatMap (encChar keep plus)))
        unfold encChar at this ih
        omega
      · have hsc := hw x (by simp)
        have hb : ∀ b ∈ utf8CP x, b < 256 ∧ b ≠ 37 := by
          intro b hb
          refine ⟨?_, ?_⟩
          · have := utf8EncodeCP_bytes x hsc.1
            rw [utf8EncodeCP_eq] at this
            exact this b hb
          · rintro rfl; exact utf8CP_ne_percent hx hb
        rw [specPD_percentEncode hb, ← utf8EncodeCP_eq, utf8Decode_encodeCP x hsc.1 hsc.2, List.length_cons]
        unfold encChar at ih
        rw [utf8EncodeCP_eq]
        omega
  | case4 => simp [Spec.percentDecode]

/-- the name or value that `append` and `set` store -/
theorem decName_length {s : Str} (hs : IsStr s) : (utf8Decode (stringPercentDecode s)).length ≤ s.length := by
  have h := decoded_encoded_length (keep := fun _ => true) (plus := false) (fun _ _ => rfl) rfl _ (combine_isScalar s hs)
  have e : (combineSurrogates s).flatMap (encChar (fun _ => true) false) = Spec.utf8 s := by
    unfold Spec.utf8
    refine flatMap_congr_mem fun c _ => ?_
    unfold encChar
    rw [if_neg (by simp)]
    simp [Spec.percentEncode]
  unfold stringPercentDecode
  rw [percentDecode_eq, utf8Encode_eq s hs, ← e]
  have := combine_length s
  omega

end Urlstd
