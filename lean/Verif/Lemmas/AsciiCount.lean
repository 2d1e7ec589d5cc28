/-
The number of ASCII bytes under percent-decoding, UTF-8 decoding and the application/x-www-form-urlencoded parser.
-/
import Verif.Lemmas.Api

namespace Urlstd

open Spec (TabOrNewline U8)

/-- number of ASCII bytes or code points -/
def ascii (l : List Nat) : Nat := l.countP (· < 128)

theorem ascii_nil : ascii [] = 0 := rfl

theorem ascii_cons (c : Nat) (l : List Nat) : ascii (c :: l) = (if c < 128 then 1 else 0) + ascii l := by
  unfold ascii
  rw [List.countP_cons]
  by_cases h : c < 128 <;> simp [h] <;> omega

theorem ascii_append (a b : List Nat) : ascii (a ++ b) = ascii a + ascii b := List.countP_append

/-! ### UTF-8 -/

/-- the decoder cannot end with an ASCII code point -/
def High (st : U8) : Prop :=
  st.needed = 0 ∨ (0x80 ≤ st.lower ∧ (st.needed = 1 → 2 ≤ st.cp) ∧ (st.needed ≠ 1 → 1 ≤ st.cp ∨ 0x90 ≤ st.lower))

theorem start_high (b : Nat) : High (U8.start b).2 ∧ ascii (U8.start b).1 = if b < 128 then 1 else 0 := by
  unfold U8.start High
  by_cases h0 : b ≤ 0x7F
  · rw [if_pos h0, if_pos (by omega)]
    exact ⟨.inl rfl, by rw [ascii_cons, if_pos (by omega)]; rfl⟩
  rw [if_neg h0, if_neg (by omega : ¬ b < 128)]
  by_cases h1 : 0xC2 ≤ b ∧ b ≤ 0xDF
  · rw [if_pos h1]
    exact ⟨.inr ⟨Nat.le_refl _, fun _ => by dsimp only; omega, fun h => absurd rfl h⟩, rfl⟩
  rw [if_neg h1]
  by_cases h2 : 0xE0 ≤ b ∧ b ≤ 0xEF
  · rw [if_pos h2]
    refine ⟨.inr ⟨?_, fun h => (by cases h), fun _ => ?_⟩, rfl⟩
    · dsimp only; split <;> omega
    · dsimp only; split
      · right; omega
      · left; omega
  rw [if_neg h2]
  by_cases h3 : 0xF0 ≤ b ∧ b ≤ 0xF4
  · rw [if_pos h3]
    refine ⟨.inr ⟨?_, fun h => (by cases h), fun _ => ?_⟩, rfl⟩
    · dsimp only; split <;> omega
    · dsimp only; split
      · right; omega
      · left; omega
  rw [if_neg h3]
  exact ⟨.inl rfl, rfl⟩

theorem byte_high {st : U8} (h : High st) (b : Nat) : High (st.byte b).2 ∧ ascii (st.byte b).1 = if b < 128 then 1 else 0 := by
  unfold U8.byte
  by_cases h0 : st.needed = 0
  · rw [if_pos h0]; exact start_high b
  rw [if_neg h0]
  obtain ⟨hl, h1, h2⟩ := h.resolve_left h0
  by_cases hb : st.lower ≤ b ∧ b ≤ st.upper
  · rw [if_pos hb, if_neg (by omega : ¬ b < 128)]
    dsimp only
    by_cases hn : st.needed = 1
    · rw [if_pos hn]
      have := h1 hn
      exact ⟨.inl rfl, by dsimp only; rw [ascii_cons, if_neg (by omega)]; rfl⟩
    · rw [if_neg hn]
      have := h2 hn
      refine ⟨.inr ⟨Nat.le_refl _, fun _ => ?_, fun _ => .inl ?_⟩, rfl⟩ <;> dsimp only <;> omega
  · rw [if_neg hb]
    refine ⟨(start_high b).1, ?_⟩
    dsimp only
    rw [ascii_cons, (start_high b).2]
    simp

theorem ascii_decodeFrom (bs : Bytes) : ∀ st : U8, High st → ascii (Spec.utf8DecodeFrom st bs) = ascii bs := by
  induction bs with
  | nil =>
    intro st _
    unfold Spec.utf8DecodeFrom
    split <;> rfl
  | cons b bs ih =>
    intro st h
    unfold Spec.utf8DecodeFrom
    rw [ascii_append, (byte_high h b).2, ih _ (byte_high h b).1, ascii_cons]

theorem ascii_decode (bs : Bytes) : ascii (Spec.utf8Decode bs) = ascii bs := ascii_decodeFrom bs {} (.inl rfl)

theorem ascii_flat (s : Str) : ascii (s.flatMap Spec.utf8CP) = ascii s := by
  induction s with
  | nil => rfl
  | cons c s ih =>
    rw [List.flatMap_cons, ascii_append, ih, ascii_cons]
    congr 1
    by_cases hc : c ≤ 0x7F
    · rw [utf8CP_low hc, ascii_cons]; rfl
    · rw [if_neg (by omega)]
      unfold ascii
      rw [List.countP_eq_zero]
      intro b hb
      have := utf8CP_head hc hb
      simpa using this

/-! ### Percent-decoding -/

theorem pd_escape {a b : Nat} (ha : Spec.isHex a = true) (hb : Spec.isHex b = true) (r : Bytes) :
    Spec.percentDecode (37 :: a :: b :: r) = (Spec.hexVal a * 16 + Spec.hexVal b) :: Spec.percentDecode r := by
  rw [Spec.percentDecode, if_pos ⟨ha, hb⟩]

theorem pd_plain {x : Nat} {r : Bytes} (h : ∀ a b t, x = 37 → r = a :: b :: t → ¬ (Spec.isHex a = true ∧ Spec.isHex b = true)) :
    Spec.percentDecode (x :: r) = x :: Spec.percentDecode r := by
  by_cases hx : x = 37
  · subst hx
    match r with
    | [] => rfl
    | [y] => rfl
    | a :: b :: t => rw [Spec.percentDecode, if_neg (h a b t rfl rfl)]
  · rw [← percentDecode_eq, percentDecode_cons_other hx, percentDecode_eq]

/-- a sequence starts with an escape, or the first byte stays -/
theorem pd_cases (bs : Bytes) : bs = [] ∨
    (∃ a b r, bs = 37 :: a :: b :: r ∧ Spec.isHex a = true ∧ Spec.isHex b = true ∧
      Spec.percentDecode bs = (Spec.hexVal a * 16 + Spec.hexVal b) :: Spec.percentDecode r) ∨
    (∃ x r, bs = x :: r ∧ (∀ a b t, x = 37 → r = a :: b :: t → ¬ (Spec.isHex a = true ∧ Spec.isHex b = true)) ∧
      Spec.percentDecode bs = x :: Spec.percentDecode r) := by
  cases bs with
  | nil => exact .inl rfl
  | cons x r =>
    right
    by_cases h : ∃ a b t, x = 37 ∧ r = a :: b :: t ∧ Spec.isHex a = true ∧ Spec.isHex b = true
    · obtain ⟨a, b, t, rfl, rfl, ha, hb⟩ := h
      exact .inl ⟨a, b, t, rfl, ha, hb, pd_escape ha hb t⟩
    · have h' : ∀ a b t, x = 37 → r = a :: b :: t → ¬ (Spec.isHex a = true ∧ Spec.isHex b = true) :=
        fun a b t h1 h2 h3 => h ⟨a, b, t, h1, h2, h3.1, h3.2⟩
      exact .inr ⟨x, r, rfl, h', pd_plain h'⟩

theorem isHex_ne {a : Nat} (h : Spec.isHex a = true) : a ≠ 37 ∧ ¬ TabOrNewline a ∧ a < 128 := by
  refine ⟨?_, ?_, isHex_lt h⟩
  · rintro rfl; cases h
  · unfold TabOrNewline; rintro (rfl | rfl | rfl) <;> cases h

theorem ascii_pd_le (n : Nat) : ∀ bs : Bytes, bs.length ≤ n → ascii (Spec.percentDecode bs) ≤ ascii bs := by
  induction n with
  | zero => intro bs h; rw [List.length_eq_zero_iff.1 (by omega : bs.length = 0)]; exact Nat.le_refl _
  | succ n ih =>
    intro bs h
    rcases pd_cases bs with rfl | ⟨a, b, r, rfl, ha, hb, e⟩ | ⟨x, r, rfl, _, e⟩
    · exact Nat.le_refl _
    · have := ih r (by simp at h; omega)
      rw [e, ascii_cons, ascii_cons]
      split <;> simp <;> rw [ascii_cons, ascii_cons] <;> omega
    · have := ih r (by simpa using h)
      rw [e, ascii_cons, ascii_cons]; omega

theorem ascii_pd_lt (n : Nat) : ∀ (pre post : Bytes) (a b : Nat), pre.length ≤ n → Spec.isHex a = true → Spec.isHex b = true →
    ascii (Spec.percentDecode (pre ++ 37 :: a :: b :: post)) < ascii (pre ++ 37 :: a :: b :: post) := by
  induction n with
  | zero =>
    intro pre post a b h ha hb
    rw [List.length_eq_zero_iff.1 (by omega : pre.length = 0), List.nil_append, pd_escape ha hb]
    have := ascii_pd_le _ post (Nat.le_refl _)
    rw [ascii_cons, ascii_cons, ascii_cons, ascii_cons, if_pos (isHex_ne ha).2.2, if_pos (isHex_ne hb).2.2,
      if_pos (by decide : (37 : Nat) < 128)]
    split <;> omega
  | succ n ih =>
    intro pre post a b h ha hb
    cases pre with
    | nil => exact ih [] post a b (Nat.zero_le _) ha hb
    | cons x pre =>
      rw [List.cons_append]
      rcases pd_cases (x :: (pre ++ 37 :: a :: b :: post)) with h0 | ⟨a', b', r, he, ha', hb', e⟩ | ⟨x', r, he, _, e⟩
      · cases h0
      · rw [e]
        match pre with
        | [] => cases he; exact absurd rfl (isHex_ne ha').1
        | [y] => cases he; exact absurd rfl (isHex_ne hb').1
        | y :: z :: q =>
          cases he
          have := ih q post a b (by simp at h; omega) ha hb
          simp only [List.cons_append]
          rw [ascii_cons, ascii_cons, ascii_cons, ascii_cons, if_pos (isHex_ne ha').2.2, if_pos (isHex_ne hb').2.2]
          split <;> simp <;> omega
      · cases he
        have := ih pre post a b (by simpa using h) ha hb
        rw [e, ascii_cons, ascii_cons]; omega

/-- A name or value with an escape is changed by decoding it. -/
theorem decoded_ne {s : Str} (hs : Spec.IsScalarStr s) {pre post : Str} {a b : Nat} (he : s = pre ++ 37 :: a :: b :: post)
    (ha : Spec.isHex a = true) (hb : Spec.isHex b = true) : Spec.decoded s ≠ s := by
  intro h
  have h1 : ascii (Spec.decoded s) = ascii s := by rw [h]
  unfold Spec.decoded Spec.utf8 at h1
  rw [combine_of_scalar s hs, ascii_decode, he] at h1
  have e : (pre ++ 37 :: a :: b :: post).flatMap Spec.utf8CP =
      pre.flatMap Spec.utf8CP ++ 37 :: a :: b :: post.flatMap Spec.utf8CP := by
    have := (isHex_ne ha).2.2
    have := (isHex_ne hb).2.2
    rw [List.flatMap_append, List.flatMap_cons, List.flatMap_cons, List.flatMap_cons, utf8CP_low (c := 37) (by decide),
      utf8CP_low (c := a) (by omega), utf8CP_low (c := b) (by omega)]
    rfl
  have h2 := ascii_pd_lt _ (pre.flatMap Spec.utf8CP) (post.flatMap Spec.utf8CP) a b (Nat.le_refl _) ha hb
  rw [← e, h1, ascii_flat] at h2
  exact absurd h2 (Nat.lt_irrefl _)

/-! ### Tabs and newlines in a form -/

/-- without tabs and newlines -/
def noTab (l : List Nat) : List Nat := l.filter fun c => ¬ TabOrNewline c

/-- number of tabs and newlines -/
def tabs (l : List Nat) : Nat := l.countP fun c => TabOrNewline c

theorem noTab_cons (c : Nat) (l : List Nat) : noTab (c :: l) = if TabOrNewline c then noTab l else c :: noTab l := by
  unfold noTab
  by_cases h : TabOrNewline c <;> simp [h]

theorem tabs_cons (c : Nat) (l : List Nat) : tabs (c :: l) = (if TabOrNewline c then 1 else 0) + tabs l := by
  unfold tabs
  rw [List.countP_cons]
  by_cases h : TabOrNewline c <;> simp [h] <;> omega

theorem tab_ascii {c : Nat} (h : TabOrNewline c) : c < 128 ∧ c ≠ 37 ∧ c ≠ 43 ∧ c ≠ 38 ∧ c ≠ 61 := by
  unfold TabOrNewline at h
  rcases h with rfl | rfl | rfl <;> decide

theorem pd_tabs (n : Nat) : ∀ p : Bytes, p.length ≤ n →
    ascii (Spec.percentDecode (noTab p)) + tabs p ≤ ascii (Spec.percentDecode p) := by
  induction n with
  | zero => intro bs h; rw [List.length_eq_zero_iff.1 (by omega : bs.length = 0)]; exact Nat.le_refl _
  | succ n ih =>
    intro p h
    rcases pd_cases p with rfl | ⟨a, b, r, rfl, ha, hb, e⟩ | ⟨x, r, rfl, hx, e⟩
    · exact Nat.le_refl _
    · have := ih r (by simp at h; omega)
      rw [e, noTab_cons, if_neg (by unfold TabOrNewline; decide), noTab_cons, if_neg (isHex_ne ha).2.1, noTab_cons,
        if_neg (isHex_ne hb).2.1, pd_escape ha hb, ascii_cons, ascii_cons, tabs_cons, tabs_cons, tabs_cons,
        if_neg (isHex_ne ha).2.1, if_neg (isHex_ne hb).2.1, if_neg (c := TabOrNewline 37) (by unfold TabOrNewline; decide)]
      omega
    · have hr := ih r (by simpa using h)
      rw [e, noTab_cons, tabs_cons, ascii_cons]
      by_cases ht : TabOrNewline x
      · rw [if_pos ht, if_pos ht, if_pos (tab_ascii ht).1]
        omega
      · rw [if_neg ht, if_neg ht]
        rcases pd_cases (x :: noTab r) with h0 | ⟨a, b, t, he, ha, hb, e'⟩ | ⟨x', r', he, _, e'⟩
        · cases h0
        · simp only [List.cons.injEq] at he
          obtain ⟨rfl, he⟩ := he
          rw [e', ascii_cons]
          rw [he, pd_plain (fun _ _ _ h => absurd h (isHex_ne ha).1), pd_plain (fun _ _ _ h => absurd h (isHex_ne hb).1),
            ascii_cons, ascii_cons, if_pos (isHex_ne ha).2.2, if_pos (isHex_ne hb).2.2] at hr
          rw [if_pos (by decide : (37 : Nat) < 128)]
          split <;> omega
        · cases he
          rw [e', ascii_cons]
          omega

/-- `+` becomes a space -/
def unplus (b : Bytes) : Bytes := b.map fun x => if x = c!"+" then 0x20 else x

theorem unplus_noTab (b : Bytes) : unplus (noTab b) = noTab (unplus b) ∧ tabs (unplus b) = tabs b := by
  have hk : ∀ c, TabOrNewline (if c = c!"+" then 0x20 else c) ↔ TabOrNewline c := by
    intro c
    split
    · next h => rw [h]; unfold TabOrNewline; decide
    · exact Iff.rfl
  induction b with
  | nil => exact ⟨rfl, rfl⟩
  | cons c b ih =>
    have e : unplus (c :: b) = (if c = c!"+" then 0x20 else c) :: unplus b := rfl
    rw [noTab_cons, e, noTab_cons, tabs_cons, tabs_cons, ih.2]
    by_cases h : TabOrNewline c
    · rw [if_pos h, if_pos ((hk c).2 h), if_pos h, if_pos ((hk c).2 h)]
      exact ⟨ih.1, rfl⟩
    · rw [if_neg h, if_neg (fun x => h ((hk c).1 x)), if_neg h, if_neg (fun x => h ((hk c).1 x))]
      exact ⟨by rw [← ih.1]; rfl, rfl⟩

theorem split_noTab (b : Bytes) :
    (noTab b).takeWhile (· ≠ c!"=") = noTab (b.takeWhile (· ≠ c!"=")) ∧
    ((noTab b).dropWhile (· ≠ c!"=")).drop 1 = noTab ((b.dropWhile (· ≠ c!"=")).drop 1) ∧
    tabs (b.takeWhile (· ≠ c!"=")) + tabs ((b.dropWhile (· ≠ c!"=")).drop 1) = tabs b := by
  induction b with
  | nil => exact ⟨rfl, rfl, rfl⟩
  | cons c b ih =>
    by_cases he : c = 61
    · subst he
      have ht : ¬ TabOrNewline 61 := by unfold TabOrNewline; decide
      rw [noTab_cons, if_neg ht]
      refine ⟨by simp [noTab], by simp, ?_⟩
      simp [tabs_cons, ht]
      rfl
    · have t1 : ∀ l : List Nat, (c :: l).takeWhile (fun x => decide (x ≠ 61)) = c :: l.takeWhile (fun x => decide (x ≠ 61)) := fun l => by simp [he]
      have d1 : ∀ l : List Nat, (c :: l).dropWhile (fun x => decide (x ≠ 61)) = l.dropWhile (fun x => decide (x ≠ 61)) := fun l => by simp [he]
      rw [noTab_cons, t1, d1, noTab_cons, tabs_cons, tabs_cons]
      by_cases h : TabOrNewline c
      · rw [if_pos h, if_pos h, if_pos h]
        exact ⟨ih.1, ih.2.1, by omega⟩
      · rw [if_neg h, if_neg h, if_neg h, t1, d1, ih.1]
        exact ⟨rfl, ih.2.1, by omega⟩

/-- ASCII code points of the names and values -/
def asciiSum (l : Params) : Nat := (l.map fun p => ascii p.1 + ascii p.2).sum

theorem asciiSum_append (a b : Params) : asciiSum (a ++ b) = asciiSum a + asciiSum b := by
  unfold asciiSum; rw [List.map_append, List.sum_append]

theorem pair_tabs (b : Bytes) :
    ascii (Spec.urlencodedPair (noTab b)).1 + ascii (Spec.urlencodedPair (noTab b)).2 + tabs b ≤
      ascii (Spec.urlencodedPair b).1 + ascii (Spec.urlencodedPair b).2 := by
  have e : ∀ b, Spec.urlencodedPair b = (Spec.utf8Decode (Spec.percentDecode (unplus (b.takeWhile (· ≠ c!"=")))),
    Spec.utf8Decode (Spec.percentDecode (unplus ((b.dropWhile (· ≠ c!"=")).drop 1)))) := fun _ => rfl
  obtain ⟨h1, h2, h3⟩ := split_noTab b
  rw [e, e, h1, h2]
  dsimp only
  rw [ascii_decode, ascii_decode, ascii_decode, ascii_decode]
  generalize b.takeWhile (· ≠ c!"=") = x at h3 ⊢
  generalize (b.dropWhile (· ≠ c!"=")).drop 1 = y at h3 ⊢
  rw [(unplus_noTab x).1, (unplus_noTab y).1]
  have hx := pd_tabs _ (unplus x) (Nat.le_refl _)
  have hy := pd_tabs _ (unplus y) (Nat.le_refl _)
  rw [(unplus_noTab x).2] at hx
  rw [(unplus_noTab y).2] at hy
  omega

theorem tabs_noTab (b : Bytes) (h : noTab b = []) (hb : b ≠ []) : 0 < tabs b := by
  cases b with
  | nil => exact absurd rfl hb
  | cons c b =>
    rw [noTab_cons] at h
    rw [tabs_cons]
    by_cases ht : TabOrNewline c
    · rw [if_pos ht]; omega
    · rw [if_neg ht] at h; cases h

theorem noTab_append (a b : Bytes) : noTab (a ++ b) = noTab a ++ noTab b := List.filter_append ..

theorem tabs_append (a b : Bytes) : tabs (a ++ b) = tabs a + tabs b := List.countP_append

/-- the pair of one sequence, if it is not empty -/
def onePair (b : Bytes) : Params := if b = [] then [] else [Spec.urlencodedPair b]

theorem onePair_tabs (b : Bytes) : asciiSum (onePair (noTab b)) + tabs b ≤ asciiSum (onePair b) := by
  unfold onePair
  by_cases hb : b = []
  · rw [hb]; exact Nat.le_refl _
  · rw [if_neg hb]
    have hp := pair_tabs b
    have e : ∀ p : Str × Str, asciiSum [p] = ascii p.1 + ascii p.2 := fun p => by simp [asciiSum]
    rw [e]
    by_cases hn : noTab b = []
    · rw [if_pos hn]
      show 0 + tabs b ≤ _
      omega
    · rw [if_neg hn, e]; exact hp

theorem parseFrom_tabs (bs : Bytes) : ∀ acc : Bytes,
    asciiSum (Spec.urlencodedParseFrom (noTab acc) (noTab bs)) + tabs acc + tabs bs ≤ asciiSum (Spec.urlencodedParseFrom acc bs) := by
  induction bs with
  | nil =>
    intro acc
    have := onePair_tabs acc
    show asciiSum (onePair (noTab acc)) + tabs acc + 0 ≤ asciiSum (onePair acc)
    exact this
  | cons b bs ih =>
    intro acc
    have e1 : ∀ (x y : Bytes) (c : Nat), Spec.urlencodedParseFrom x (c :: y) =
      if c = c!"&" then onePair x ++ Spec.urlencodedParseFrom [] y else Spec.urlencodedParseFrom (x ++ [c]) y := fun _ _ _ => rfl
    rw [noTab_cons, tabs_cons, e1]
    by_cases ht : TabOrNewline b
    · rw [if_pos ht, if_pos ht, if_neg (tab_ascii ht).2.2.2.1]
      have := ih (acc ++ [b])
      rw [noTab_append, noTab_cons, if_pos ht, tabs_append, tabs_cons, if_pos ht] at this
      have e2 : noTab acc ++ noTab [] = noTab acc := List.append_nil _
      rw [e2] at this
      have e3 : tabs [] = 0 := rfl
      omega
    · rw [if_neg ht, if_neg ht, e1]
      by_cases hb : b = 38
      · rw [if_pos hb, if_pos hb, asciiSum_append, asciiSum_append]
        have h1 := ih []
        have h2 := onePair_tabs acc
        have e2 : noTab [] = [] := rfl
        have e3 : tabs [] = 0 := rfl
        rw [e2, e3] at h1
        omega
      · rw [if_neg hb, if_neg hb]
        have := ih (acc ++ [b])
        rw [noTab_append, noTab_cons, if_neg ht, tabs_append, tabs_cons, if_neg ht] at this
        have e2 : noTab acc ++ b :: noTab [] = noTab acc ++ [b] := rfl
        rw [e2] at this
        have e3 : tabs [] = 0 := rfl
        omega

theorem flat_noTab (s : Str) : (noTab s).flatMap Spec.utf8CP = noTab (s.flatMap Spec.utf8CP) ∧
    tabs (s.flatMap Spec.utf8CP) = tabs s := by
  induction s with
  | nil => exact ⟨rfl, rfl⟩
  | cons c s ih =>
    rw [List.flatMap_cons, noTab_append, tabs_append, ih.2, ← ih.1, noTab_cons, tabs_cons]
    by_cases hc : c ≤ 0x7F
    · rw [utf8CP_low hc, noTab_cons, tabs_cons]
      by_cases ht : TabOrNewline c
      · rw [if_pos ht, if_pos ht]
        exact ⟨rfl, rfl⟩
      · rw [if_neg ht, if_neg ht, List.flatMap_cons, utf8CP_low hc]
        exact ⟨rfl, rfl⟩
    · have ht : ¬ TabOrNewline c := fun h => by have := (tab_ascii h).1; omega
      have hn : ∀ b ∈ Spec.utf8CP c, ¬ TabOrNewline b := fun b hb h => by
        have := (tab_ascii h).1; have := utf8CP_head hc hb; omega
      rw [if_neg ht, if_neg ht, List.flatMap_cons]
      have e1 : noTab (Spec.utf8CP c) = Spec.utf8CP c := by
        unfold noTab; rw [List.filter_eq_self]; intro b hb; simpa using hn b hb
      have e2 : tabs (Spec.utf8CP c) = 0 := by
        unfold tabs; rw [List.countP_eq_zero]; intro b hb; simpa using hn b hb
      rw [e1, e2]
      exact ⟨rfl, rfl⟩

/-- A form with tabs or newlines has other pairs than the form without them. -/
theorem form_tabs {s : Str} (hs : Spec.IsScalarStr s) {c : Nat} (hc : c ∈ s) (ht : TabOrNewline c) :
    Spec.urlencodedParse (Spec.utf8 (noTab s)) ≠ Spec.urlencodedParse (Spec.utf8 s) := by
  intro h
  have hs' : Spec.IsScalarStr (noTab s) := hs.mono fun c hc => (List.mem_filter.1 hc).1
  unfold Spec.urlencodedParse Spec.utf8 at h
  rw [combine_of_scalar s hs, combine_of_scalar _ hs', (flat_noTab s).1] at h
  have h1 := parseFrom_tabs (s.flatMap Spec.utf8CP) []
  have e2 : noTab [] = [] := rfl
  rw [e2, h, (flat_noTab s).2] at h1
  have h2 : 0 < tabs s := by
    unfold tabs; rw [List.countP_pos_iff]; exact ⟨c, hc, by simpa using ht⟩
  omega

end Urlstd
