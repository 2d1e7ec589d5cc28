/-
The urlencoded parser gives the same pairs for a text and for the query that percent-encoding makes of it.
-/
import Verif.Lemmas.Percent
import Verif.Lemmas.Machine1

set_option linter.unusedSimpArgs false
set_option linter.unusedVariables false

namespace Urlstd

open Spec (IsStr IsScalarStr urlencodedParse urlencodedParseFrom urlencodedPair)

/-- percent-encode a byte unless it is kept -/
def encByte (keep : Nat → Bool) (b : Nat) : Bytes := if keep b then [b] else Spec.pct b

/-- the bytes that must be kept -/
structure KeepsForm (keep : Nat → Bool) : Prop where
  percent : keep 37 = true
  amp : keep 38 = true
  plus : keep 43 = true
  eq : keep 61 = true
  hex : ∀ b, isHex b = true → keep b = true

theorem hexUpper_spec {d : Nat} (h : d < 16) : isHex (Spec.hexUpper d) = true ∧ hexVal (Spec.hexUpper d) = d ∧ Spec.hexUpper d ≠ 38 ∧
    Spec.hexUpper d ≠ 43 ∧ Spec.hexUpper d ≠ 61 := by
  have : ∀ d < 16, isHex (Spec.hexUpper d) = true ∧ hexVal (Spec.hexUpper d) = d ∧ Spec.hexUpper d ≠ 38 ∧
    Spec.hexUpper d ≠ 43 ∧ Spec.hexUpper d ≠ 61 := by decide
  exact this d h

/-- "+" becomes a space -/
def plus (x : Nat) : Nat := if x = 43 then 32 else x

theorem plus_other {x : Nat} (h : x ≠ 43) : plus x = x := by unfold plus; rw [if_neg h]

theorem pct_plus {b : Nat} (hb : b < 256) : (Spec.pct b).map plus = Spec.pct b := by
  have h1 := hexUpper_spec (d := b / 16) (by omega)
  have h2 := hexUpper_spec (d := b % 16) (by omega)
  unfold Spec.pct
  simp only [List.map_cons, List.map_nil]
  rw [plus_other h1.2.2.2.1, plus_other h2.2.2.2.1]
  rfl

theorem specPD_pct {b : Nat} (hb : b < 256) (r : Bytes) : Spec.percentDecode (Spec.pct b ++ r) = b :: Spec.percentDecode r := by
  have h1 := hexUpper_spec (d := b / 16) (by omega)
  have h2 := hexUpper_spec (d := b % 16) (by omega)
  unfold Spec.pct
  simp only [List.cons_append, List.nil_append]
  rw [Spec.percentDecode, isHex_spec, if_pos ⟨h1.1, h2.1⟩, hexVal_spec, h1.2.1, h2.2.1]
  congr 1
  omega

theorem specPD_percent_other {a : Nat} {r : Bytes} (h : isHex a = false) :
    Spec.percentDecode (37 :: a :: r) = 37 :: Spec.percentDecode (a :: r) := by
  cases r with
  | nil => rfl
  | cons b r => rw [Spec.percentDecode, isHex_spec, if_neg (by simp [h])]

theorem specPD_percent_other₂ {a b : Nat} {r : Bytes} (h : isHex b = false) :
    Spec.percentDecode (37 :: a :: b :: r) = 37 :: Spec.percentDecode (a :: b :: r) := by
  rw [Spec.percentDecode, isHex_spec, if_neg (by simp [h])]

variable {keep : Nat → Bool}

theorem encByte_plus_cases (hk : KeepsForm keep) {b : Nat} (hb : b < 256) :
    ((encByte keep b).map plus = [plus b] ∧ (isHex b = true ∨ b = 37 → plus b = b)) ∨
      ((encByte keep b).map plus = Spec.pct b ∧ isHex b = false ∧ b ≠ 37 ∧ plus b = b) := by
  unfold encByte
  by_cases h : keep b = true
  · rw [if_pos h]
    refine .inl ⟨rfl, ?_⟩
    rintro (h | h)
    · refine plus_other ?_
      rintro rfl
      revert h; decide
    · subst h; rfl
  · rw [if_neg h]
    refine .inr ⟨pct_plus hb, ?_, ?_, ?_⟩
    · cases hx : isHex b with
      | false => rfl
      | true => exact absurd (hk.hex b hx) h
    · rintro rfl; exact h hk.percent
    · refine plus_other ?_
      rintro rfl; exact h hk.plus

/-- the first byte of an encoded text is a hexadecimal digit only if it was one -/
theorem enc_map_cons (hk : KeepsForm keep) {b : Nat} (hb : b < 256) (r : Bytes) (hx : isHex b = false) :
    ∃ y t, (encByte keep b).map plus ++ r = y :: t ∧ isHex y = false := by
  rcases encByte_plus_cases hk hb with ⟨h, _⟩ | ⟨h, _⟩
  · refine ⟨plus b, r, by rw [h]; rfl, ?_⟩
    unfold plus
    split
    · decide
    · exact hx
  · exact ⟨37, _, by rw [h]; rfl, by decide⟩

theorem isHex_plus {b : Nat} : isHex (plus b) = isHex b := by
  unfold plus
  split
  · next h => subst h; decide
  · rfl

theorem encByte_hex (hk : KeepsForm keep) {b : Nat} (hx : isHex b = true) : (encByte keep b).map plus = [b] := by
  unfold encByte
  rw [if_pos (hk.hex b hx)]
  have : b ≠ 43 := by rintro rfl; revert hx; decide
  simp [plus_other this]

theorem encByte_percent (hk : KeepsForm keep) : (encByte keep 37).map plus = [37] := by
  unfold encByte
  rw [if_pos hk.percent]; rfl

theorem specPD_enc (hk : KeepsForm keep) (bs : Bytes) (hb : ∀ b ∈ bs, b < 256) :
    Spec.percentDecode (bs.flatMap fun b => (encByte keep b).map plus) = Spec.percentDecode (bs.map plus) := by
  suffices h : ∀ n, ∀ bs : Bytes, bs.length ≤ n → (∀ b ∈ bs, b < 256) →
      Spec.percentDecode (bs.flatMap fun b => (encByte keep b).map plus) = Spec.percentDecode (bs.map plus) from
    h bs.length bs (Nat.le_refl _) hb
  intro n
  induction n with
  | zero =>
    intro bs hn _
    have : bs = [] := List.length_eq_zero_iff.1 (by omega)
    rw [this]; rfl
  | succ n ih =>
    intro bs hn hb
    cases bs with
    | nil => rfl
    | cons x r =>
      have hx := hb x (by simp)
      have hr : ∀ b ∈ r, b < 256 := fun b h => hb b (by simp [h])
      have hl : r.length ≤ n := by simpa using hn
      rw [List.flatMap_cons, List.map_cons]
      by_cases h37 : x = 37
      · subst h37
        rw [encByte_percent hk]
        rw [List.singleton_append, show plus 37 = 37 from rfl]
        cases r with
        | nil => rfl
        | cons a r =>
          by_cases ha : isHex a = true
          · cases r with
            | nil => rw [List.flatMap_cons, encByte_hex hk ha]; simp [plus_other (show a ≠ 43 by rintro rfl; revert ha; decide)]
            | cons b r =>
              have hra : plus a = a := plus_other (show a ≠ 43 by rintro rfl; revert ha; decide)
              by_cases hbx : isHex b = true
              · have hrb : plus b = b := plus_other (show b ≠ 43 by rintro rfl; revert hbx; decide)
                rw [List.flatMap_cons, List.flatMap_cons, encByte_hex hk ha, encByte_hex hk hbx, List.map_cons, List.map_cons, hra, hrb]
                simp only [List.cons_append, List.nil_append]
                rw [Spec.percentDecode, if_pos ⟨ha, hbx⟩, Spec.percentDecode, if_pos ⟨ha, hbx⟩]
                rw [ih r (by simp at hl; omega) (fun c hc => hr c (by simp [hc]))]
              · have hbx : isHex b = false := by simpa using hbx
                obtain ⟨y, t, ht, hy⟩ := enc_map_cons hk (hr b (by simp)) (r.flatMap fun b => (encByte keep b).map plus) hbx
                have := ih (a :: b :: r) hl hr
                rw [List.flatMap_cons, List.flatMap_cons, encByte_hex hk ha, ht] at this ⊢
                simp only [List.cons_append, List.nil_append] at this ⊢
                rw [specPD_percent_other₂ hy, this]
                rw [List.map_cons, List.map_cons, specPD_percent_other₂ (by rw [isHex_plus]; exact hbx)]
          · have ha : isHex a = false := by simpa using ha
            obtain ⟨y, t, ht, hy⟩ := enc_map_cons hk (hr a (by simp)) (r.flatMap fun b => (encByte keep b).map plus) ha
            have := ih (a :: r) hl hr
            rw [List.flatMap_cons, ht] at this ⊢
            rw [specPD_percent_other hy, this, List.map_cons, specPD_percent_other (by rw [isHex_plus]; exact ha)]
      · have h2 : plus x ≠ 37 := by unfold plus; split <;> omega
        rw [specPD_other h2]
        rcases encByte_plus_cases hk hx with ⟨h, _⟩ | ⟨h, _, _, hp⟩
        · rw [h]
          rw [List.singleton_append]
          rw [specPD_other h2, ih r hl hr]
        · rw [h, specPD_pct hx, ih r hl hr, hp]

theorem encByte_no (hk : KeepsForm keep) {b d : Nat} (hb : b < 256) (hd : d = 38 ∨ d = 61) (hne : b ≠ d) : d ∉ encByte keep b := by
  unfold encByte
  split
  · simp only [List.mem_cons, List.not_mem_nil, or_false]; exact fun h => hne h.symm
  · have h1 := hexUpper_spec (d := b / 16) (by omega)
    have h2 := hexUpper_spec (d := b % 16) (by omega)
    unfold Spec.pct
    simp only [List.mem_cons, List.not_mem_nil, or_false, not_or]
    rcases hd with rfl | rfl
    · exact ⟨by decide, fun h => h1.2.2.1 h.symm, fun h => h2.2.2.1 h.symm⟩
    · exact ⟨by decide, fun h => h1.2.2.2.2 h.symm, fun h => h2.2.2.2.2 h.symm⟩

theorem takeWhile_enc (hk : KeepsForm keep) (bs : Bytes) (hb : ∀ b ∈ bs, b < 256) :
    (bs.flatMap (encByte keep)).takeWhile (· ≠ 61) = (bs.takeWhile (· ≠ 61)).flatMap (encByte keep) ∧
    (bs.flatMap (encByte keep)).dropWhile (· ≠ 61) = (bs.dropWhile (· ≠ 61)).flatMap (encByte keep) := by
  induction bs with
  | nil => exact ⟨rfl, rfl⟩
  | cons b bs ih =>
    have ih := ih fun c hc => hb c (by simp [hc])
    by_cases h : b = 61
    · subst h
      have : encByte keep 61 = [61] := by unfold encByte; rw [if_pos hk.eq]
      rw [List.flatMap_cons, this]
      constructor
      · simp
      · simp [this]
    · have hno := encByte_no hk (hb b (by simp)) (.inr rfl) h
      have hall : ∀ c ∈ encByte keep b, (decide (c ≠ 61)) = true := by
        intro c hc
        rw [decide_eq_true_eq]
        rintro rfl; exact hno hc
      rw [List.flatMap_cons, List.takeWhile_append_of_pos hall, List.dropWhile_append_of_pos hall, ih.1, ih.2]
      simp [h]

theorem urlencodedPair_enc (hk : KeepsForm keep) (bs : Bytes) (hb : ∀ b ∈ bs, b < 256) :
    urlencodedPair (bs.flatMap (encByte keep)) = urlencodedPair bs := by
  have hd : ∀ bs : Bytes, (∀ b ∈ bs, b < 256) →
      Spec.percentDecode ((bs.flatMap (encByte keep)).map fun x => if x = 43 then 32 else x) =
        Spec.percentDecode (bs.map fun x => if x = 43 then 32 else x) := by
    intro bs hb
    have := specPD_enc hk bs hb
    rw [← List.map_flatMap] at this
    exact this
  obtain ⟨h1, h2⟩ := takeWhile_enc hk bs hb
  unfold urlencodedPair
  dsimp only
  rw [h1, h2]
  have e : ((bs.dropWhile (· ≠ 61)).flatMap (encByte keep)).drop 1 = ((bs.dropWhile (· ≠ 61)).drop 1).flatMap (encByte keep) := by
    cases hdw : bs.dropWhile (· ≠ 61) with
    | nil => rfl
    | cons x xs =>
      have hx : x = 61 := by
        have := List.head?_dropWhile_not (fun c => decide (c ≠ 61)) bs
        rw [hdw] at this
        simpa using this
      subst hx
      have : encByte keep 61 = [61] := by unfold encByte; rw [if_pos hk.eq]
      rw [List.flatMap_cons, this]; rfl
  rw [e, hd _ fun b h => hb b ((List.takeWhile_sublist _).subset h),
    hd _ fun b h => hb b ((List.dropWhile_sublist _).subset (List.mem_of_mem_drop h))]

theorem parseFrom_append {xs : Bytes} (h : 38 ∉ xs) (acc ys : Bytes) :
    urlencodedParseFrom acc (xs ++ ys) = urlencodedParseFrom (acc ++ xs) ys := by
  induction xs generalizing acc with
  | nil => simp
  | cons x xs ih =>
    have hx : x ≠ 38 := fun e => h (by simp [e])
    show urlencodedParseFrom acc (x :: (xs ++ ys)) = _
    rw [urlencodedParseFrom, if_neg hx, ih (fun e => h (by simp [e]))]
    simp

theorem encByte_ne_nil (b : Nat) : encByte keep b ≠ [] := by
  unfold encByte Spec.pct
  split <;> simp

theorem flatMap_enc_nil {acc : Bytes} : acc.flatMap (encByte keep) = [] ↔ acc = [] := by
  cases acc with
  | nil => simp
  | cons a as => simp [List.flatMap_cons, encByte_ne_nil]

theorem urlencodedParseFrom_enc (hk : KeepsForm keep) (bs : Bytes) : ∀ acc : Bytes, (∀ b ∈ acc, b < 256) → (∀ b ∈ bs, b < 256) →
    urlencodedParseFrom (acc.flatMap (encByte keep)) (bs.flatMap (encByte keep)) = urlencodedParseFrom acc bs := by
  have hpair : ∀ acc : Bytes, (∀ b ∈ acc, b < 256) →
      (if acc.flatMap (encByte keep) = [] then [] else [urlencodedPair (acc.flatMap (encByte keep))]) =
        if acc = [] then [] else [urlencodedPair acc] := by
    intro acc ha
    by_cases h : acc = []
    · rw [if_pos h, if_pos (flatMap_enc_nil.2 h)]
    · rw [if_neg h, if_neg (fun e => h (flatMap_enc_nil.1 e)), urlencodedPair_enc hk acc ha]
  induction bs with
  | nil => intro acc ha _; exact hpair acc ha
  | cons b bs ih =>
    intro acc ha hb
    have hb' : ∀ c ∈ bs, c < 256 := fun c hc => hb c (by simp [hc])
    rw [List.flatMap_cons]
    by_cases h : b = 38
    · subst h
      have : encByte keep 38 = [38] := by unfold encByte; rw [if_pos hk.amp]
      rw [this]
      show urlencodedParseFrom _ (38 :: _) = _
      rw [urlencodedParseFrom, if_pos rfl, urlencodedParseFrom, if_pos rfl, hpair acc ha]
      congr 1
      exact ih [] (by simp) hb'
    · rw [parseFrom_append (encByte_no hk (hb b (by simp)) (.inl rfl) h), urlencodedParseFrom, if_neg h]
      rw [← ih (acc ++ [b]) (by
        intro c hc
        rcases List.mem_append.1 hc with h | h
        · exact ha c h
        · rw [List.mem_singleton.1 h]; exact hb b (by simp)) hb']
      rw [List.flatMap_append]
      simp

/-- percent-encoding that keeps "%", "&", "+", "=" and hexadecimal digits does not change the pairs -/
theorem urlencodedParse_enc (hk : KeepsForm keep) (bs : Bytes) (hb : ∀ b ∈ bs, b < 256) :
    urlencodedParse (bs.flatMap (encByte keep)) = urlencodedParse bs :=
  urlencodedParseFrom_enc hk bs [] (by simp) hb

end Urlstd
