/-
Reading back what `repr` writes (C86).
-/
import Verif.Repr
import Verif.Spec.Literal
import Verif.Spec.Url
import Verif.Lemmas.RoundTrip
import Verif.Lemmas.Machine1

set_option linter.unusedSimpArgs false
set_option linter.unusedVariables false

namespace Urlstd

open Spec

variable {env : Env} {pr : Nat → Bool}

/-! ### Strings -/

theorem hexValue_lower {d : Nat} (h : d < 16) : Literal.hexValue (hexDigitLower d) = some d := by
  unfold hexDigitLower Literal.hexValue
  split
  · rw [if_pos (by omega)]; congr 1; omega
  · rw [if_neg (by omega), if_pos (by omega)]; congr 1; omega

theorem hexDigits_fixed (w : Nat) : ∀ (m n : Nat) (r : Str), n < 16 ^ w →
    Literal.hexDigits w m (hexFixed w n ++ r) = some (16 ^ w * m + n, r) := by
  have append : ∀ (a b m : Nat) (s t r : Str) (x : Nat), Literal.hexDigits a m (s ++ (t ++ r)) = some (x, t ++ r) →
      Literal.hexDigits (a + b) m (s ++ (t ++ r)) = Literal.hexDigits b x (t ++ r) := by
    intro a b
    induction a with
    | zero =>
      intro m s t r x h
      simp only [Literal.hexDigits, Option.some.injEq, Prod.mk.injEq] at h
      rw [Nat.zero_add, h.1, h.2]
    | succ a ih =>
      intro m s t r x h
      cases s with
      | nil =>
        cases hs : t ++ r with
        | nil =>
          rw [List.nil_append, hs] at h
          simp [Literal.hexDigits] at h
        | cons c cs =>
          exfalso
          -- the reader consumes at least one character
          have len : ∀ (a m : Nat) (s : Str) (x : Nat) (r : Str), Literal.hexDigits a m s = some (x, r) → s.length = r.length + a := by
            intro a
            induction a with
            | zero => intro m s x r h; simp only [Literal.hexDigits, Option.some.injEq, Prod.mk.injEq] at h; rw [h.2]; rfl
            | succ a ih =>
              intro m s x r h
              cases s with
              | nil => simp [Literal.hexDigits] at h
              | cons c s =>
                simp only [Literal.hexDigits] at h
                split at h
                · have := ih _ _ _ _ h
                  simp only [List.length_cons]; omega
                · cases h
          have := len _ _ _ _ _ h
          rw [List.nil_append] at this
          omega
      | cons c s =>
        rw [show a + 1 + b = (a + b) + 1 by omega]
        simp only [Literal.hexDigits, List.cons_append] at h ⊢
        split at h
        · exact ih _ _ _ _ _ h
        · cases h
  induction w with
  | zero => intro m n r h; simp only [Literal.hexDigits, hexFixed, List.nil_append]; simp at h; simp [h]
  | succ w ih =>
    intro m n r h
    have h1 : n / 16 < 16 ^ w := by
      rw [Nat.pow_succ] at h
      exact Nat.div_lt_of_lt_mul (by rw [Nat.mul_comm]; exact h)
    have := append w 1 m (hexFixed w (n / 16)) [hexDigitLower (n % 16)] r _ (ih m (n / 16) ([hexDigitLower (n % 16)] ++ r) h1)
    rw [hexFixed, List.append_assoc, this]
    simp only [Literal.hexDigits, List.cons_append, List.nil_append, hexValue_lower (Nat.mod_lt n (by decide : 16 > 0))]
    congr 1
    rw [Nat.pow_succ]
    refine Prod.ext ?_ rfl
    show 16 * (16 ^ w * m + n / 16) + n % 16 = 16 ^ w * 16 * m + n
    have := Nat.div_add_mod n 16
    rw [Nat.mul_add, ← Nat.mul_assoc, Nat.mul_comm 16 (16 ^ w)]
    omega

/-- one character -/
theorem reprChar_read {q c : Nat} (hq : q = 39 ∨ q = 34) (hc : c ≤ 0x10FFFF) (n : Nat) (r : Str) :
    Literal.strBody q (n + 1) (reprChar pr q c ++ r) =
      match Literal.strBody q n r with
      | none => none
      | some (vs, t) => some (c :: vs, t) := by
  have hesc : ∀ (e : Nat) (t : Str), Literal.escape (e :: (t ++ r)) = some (c, r) →
      Literal.strBody q (n + 1) (92 :: e :: (t ++ r)) =
        match Literal.strBody q n r with
        | none => none
        | some (vs, t) => some (c :: vs, t) := by
    intro e t h
    simp only [Literal.strBody]
    rw [if_neg (by omega), if_neg (by omega), if_pos trivial, h]
    rfl
  have hplain : c ≠ q → c ≠ 92 → c ≠ 10 → Literal.strBody q (n + 1) ([c] ++ r) =
        match Literal.strBody q n r with
        | none => none
        | some (vs, t) => some (c :: vs, t) := by
    intro h1 h2 h3
    simp only [Literal.strBody, List.cons_append, List.nil_append]
    rw [if_neg h1, if_neg h3, if_neg h2]
    rfl
  unfold reprChar
  split
  · next h =>
    simp only [Bool.or_eq_true, decide_eq_true_eq] at h
    refine hesc c [] ?_
    simp only [Literal.escape, List.nil_append]
    rw [if_pos (by omega)]
  next h0 =>
  simp only [Bool.or_eq_true, decide_eq_true_eq, not_or] at h0
  split
  · next h => subst h; exact hesc 116 [] rfl
  split
  · next h => subst h; exact hesc 110 [] rfl
  split
  · next h => subst h; exact hesc 114 [] rfl
  split
  · next h =>
    simp only [Bool.or_eq_true, decide_eq_true_eq] at h
    refine hesc 120 (hexFixed 2 c) ?_
    show Literal.hexDigits 2 0 _ = _
    rw [hexDigits_fixed 2 0 c r (by omega)]
    simp
  split
  · exact hplain h0.1 h0.2 (by omega)
  split
  · exact hplain h0.1 h0.2 (by omega)
  split
  · refine hesc 120 (hexFixed 2 c) ?_
    show Literal.hexDigits 2 0 _ = _
    rw [hexDigits_fixed 2 0 c r (by omega)]
    simp
  split
  · refine hesc 117 (hexFixed 4 c) ?_
    show Literal.hexDigits 4 0 _ = _
    rw [hexDigits_fixed 4 0 c r (by omega)]
    simp
  · refine hesc 85 (hexFixed 8 c) ?_
    show Literal.hexDigits 8 0 _ = _
    rw [hexDigits_fixed 8 0 c r (by omega)]
    simp

theorem reprQuote_or (s : Str) : reprQuote s = 39 ∨ reprQuote s = 34 := by
  unfold reprQuote
  split
  · exact .inr rfl
  · exact .inl rfl

theorem reprBody_read {q : Nat} (hq : q = 39 ∨ q = 34) (s : Str) (hs : IsStr s) : ∀ (n : Nat) (r : Str), s.length < n →
    Literal.strBody q n (s.flatMap (reprChar pr q) ++ q :: r) = some (s, r) := by
  induction s with
  | nil =>
    intro n r hn
    cases n with
    | zero => simp at hn
    | succ n => simp [Literal.strBody]
  | cons c s ih =>
    intro n r hn
    cases n with
    | zero => simp at hn
    | succ n =>
      rw [List.flatMap_cons, List.append_assoc, reprChar_read hq (hs c (by simp)),
        ih (fun x hx => hs x (by simp [hx])) n r (by simpa using hn)]

theorem reprChar_pos (q c : Nat) : 1 ≤ (reprChar pr q c).length := by
  unfold reprChar
  split
  · simp
  split
  · simp
  split
  · simp
  split
  · simp
  split
  · simp
  split
  · simp
  split
  · simp
  split
  · simp
  split <;> simp

theorem reprBody_length (q : Nat) (s : Str) : s.length ≤ (s.flatMap (reprChar pr q)).length := by
  induction s with
  | nil => simp
  | cons c s ih =>
    have := reprChar_pos (pr := pr) q c
    simp only [List.flatMap_cons, List.length_append, List.length_cons]
    omega

theorem reprStr_append (s r : Str) :
    reprStr pr s ++ r = reprQuote s :: (s.flatMap (reprChar pr (reprQuote s)) ++ reprQuote s :: r) := by
  simp [reprStr]

theorem reprStr_read {s : Str} (hs : IsStr s) (r : Str) : Literal.str (reprStr pr s ++ r) = some (s, r) := by
  rw [reprStr_append]
  simp only [Literal.str]
  rw [if_pos (reprQuote_or s)]
  refine reprBody_read (reprQuote_or s) s hs _ r ?_
  have := reprBody_length (pr := pr) (reprQuote s) s
  simp only [List.length_append, List.length_cons]
  omega

/-! ### Numbers, None, lists -/

theorem text_read (t r : Str) : Literal.text t (t ++ r) = some r := by
  unfold Literal.text
  rw [if_pos (by simp)]
  simp

theorem text_head {t : Nat} {ts : Str} {c : Nat} {s : Str} (h : t ≠ c) : Literal.text (t :: ts) (c :: s) = none := by
  unfold Literal.text
  rw [if_neg]
  simp [List.isPrefixOf, h]

/-- the text of a number ends where no digit follows -/
def NoDigit (r : Str) : Prop := ∀ c, r.head? = some c → ¬ (48 ≤ c ∧ c ≤ 57)

theorem int_read (n : Nat) {r : Str} (hr : NoDigit r) : Literal.int (natDec n ++ r) = some (n, r) := by
  have h1 : ∀ c ∈ natDec n, (decide (48 ≤ c) && decide (c ≤ 57)) = true := by
    intro c hc
    have := natDec_digits n c hc
    rw [isDigit_iff] at this
    simp; omega
  have h2 : ∀ c, r.head? = some c → (decide (48 ≤ c) && decide (c ≤ 57)) = false := by
    intro c hc
    have := hr c hc
    rw [Bool.and_eq_false_iff]
    simp only [decide_eq_false_iff_not]
    omega
  unfold Literal.int
  rw [takeWhile_append h1 h2, if_neg (natDec_ne_nil n)]
  have hv : (natDec n).foldl (fun n c => 10 * n + (c - 48)) 0 = n := by
    have := decimal_eq (natDec_digits n)
    rw [natDec_val] at this
    exact this
  rw [hv]
  simp

theorem natDec_cons (n : Nat) : ∃ c cs, natDec n = c :: cs ∧ 48 ≤ c ∧ c ≤ 57 := by
  cases h : natDec n with
  | nil => exact absurd h (natDec_ne_nil n)
  | cons c cs =>
    have := natDec_digits n c (by rw [h]; simp)
    rw [isDigit_iff] at this
    exact ⟨c, cs, rfl, this⟩

theorem str_head {c : Nat} {s : Str} (h1 : c ≠ 39) (h2 : c ≠ 34) : Literal.str (c :: s) = none := by
  simp only [Literal.str]
  rw [if_neg (by omega)]

theorem int_head {c : Nat} {s : Str} (h : ¬ (48 ≤ c ∧ c ≤ 57)) : Literal.int (c :: s) = none := by
  unfold Literal.int
  have : (decide (48 ≤ c) && decide (c ≤ 57)) = false := by
    rw [Bool.and_eq_false_iff]
    simp only [decide_eq_false_iff_not]
    omega
  simp [List.takeWhile, this]

theorem option_none {α : Type} (p : Str → Option (α × Str)) (r : Str) :
    Literal.option p (u!"None" ++ r) = some (none, r) := by
  unfold Literal.option
  rw [text_read]

theorem option_some {α : Type} {p : Str → Option (α × Str)} {t r : Str} {x : α} (ht : t.head? ≠ some 78) (hne : t ≠ [])
    (h : p (t ++ r) = some (x, r)) : Literal.option p (t ++ r) = some (some x, r) := by
  unfold Literal.option
  have : Literal.text u!"None" (t ++ r) = none := by
    cases t with
    | nil => exact absurd rfl hne
    | cons c cs => exact text_head (fun h => ht (by rw [← h]; rfl))
  rw [this, h]
  rfl

/-- a reader reads the text `f x` back as `x` when something follows that may follow an element -/
def ReadsBack {α : Type} (p : Str → Option (α × Str)) (f : α → Str) (x : α) : Prop :=
  ∀ r : Str, (r.head? = some 44 ∨ r.head? = some 93 ∨ r.head? = some 41) → p (f x ++ r) = some (x, r)

theorem joinWith_cons {α : Type} (f : α → Str) (x : α) (xs : List α) :
    joinWith u!", " ((x :: xs).map f) = f x ++ xs.flatMap fun y => u!", " ++ f y := by
  induction xs generalizing x with
  | nil => simp [joinWith]
  | cons y ys ih =>
    have := ih y
    simp only [List.map_cons] at this ⊢
    rw [joinWith, this]
    simp

theorem more_read {α : Type} {p : Str → Option (α × Str)} {f : α → Str} {close : Nat} (hcl : close = 93 ∨ close = 41)
    (xs : List α) (h : ∀ x ∈ xs, ReadsBack p f x) : ∀ (n : Nat) (r : Str), xs.length < n →
    Literal.more p close n ((xs.flatMap fun y => u!", " ++ f y) ++ close :: r) = some (xs, r) := by
  induction xs with
  | nil =>
    intro n r hn
    cases n with
    | zero => simp at hn
    | succ n =>
      simp only [Literal.more, List.flatMap_nil, List.nil_append]
      have := text_read [close] r
      rw [List.singleton_append] at this
      rw [this]
  | cons x xs ih =>
    intro n r hn
    cases n with
    | zero => simp at hn
    | succ n =>
      have hx := h x (by simp) ((xs.flatMap fun y => u!", " ++ f y) ++ close :: r) (by
        cases xs with
        | nil => rcases hcl with rfl | rfl <;> simp
        | cons y ys => simp)
      have e : ((x :: xs).flatMap fun y => u!", " ++ f y) ++ close :: r =
          u!", " ++ (f x ++ ((xs.flatMap fun y => u!", " ++ f y) ++ close :: r)) := by
        simp
      have hnone : Literal.text [close] (u!", " ++ (f x ++ ((xs.flatMap fun y => u!", " ++ f y) ++ close :: r))) = none :=
        text_head (by omega)
      simp only [Literal.more]
      rw [e, hnone]
      dsimp only
      rw [text_read]
      simp only [bind, Option.bind]
      rw [hx]
      dsimp only
      rw [ih (fun y hy => h y (by simp [hy])) n r (by simpa using hn)]

theorem flatMap_length {α : Type} (f : α → Str) (xs : List α) : xs.length ≤ (xs.flatMap fun y => u!", " ++ f y).length := by
  induction xs with
  | nil => simp
  | cons x xs ih => simp only [List.flatMap_cons, List.length_append, List.length_cons]; omega

theorem list_read {α : Type} {p : Str → Option (α × Str)} {f : α → Str} (xs : List α)
    (h : ∀ x ∈ xs, ReadsBack p f x) (hf : ∀ x ∈ xs, f x ≠ [] ∧ (f x).head? ≠ some 93) (r : Str) :
    Literal.list p (reprList (xs.map f) ++ r) = some (xs, r) := by
  cases xs with
  | nil =>
    have e : reprList (([] : List α).map f) ++ r = u!"[" ++ (u!"]" ++ r) := by simp [reprList, joinWith]
    unfold Literal.list
    rw [e, text_read]
    simp only [bind, Option.bind]
    rw [text_read]
  | cons x xs =>
    have e : reprList ((x :: xs).map f) ++ r = u!"[" ++ (f x ++ ((xs.flatMap fun y => u!", " ++ f y) ++ 93 :: r)) := by
      rw [reprList, joinWith_cons]
      simp
    have hx := h x (by simp) ((xs.flatMap fun y => u!", " ++ f y) ++ 93 :: r) (by
      cases xs with
      | nil => simp
      | cons y ys => simp)
    have hnone : Literal.text u!"]" (f x ++ ((xs.flatMap fun y => u!", " ++ f y) ++ 93 :: r)) = none := by
      obtain ⟨h1, h2⟩ := hf x (by simp)
      cases hfx : f x with
      | nil => exact absurd hfx h1
      | cons c cs => exact text_head fun hc => h2 (by rw [hfx, ← hc]; rfl)
    unfold Literal.list
    rw [e, text_read]
    simp only [bind, Option.bind]
    rw [hnone]
    dsimp only
    rw [hx]
    dsimp only
    rw [more_read (.inl rfl) xs (fun y hy => h y (by simp [hy])) _ r (by
      have := flatMap_length f xs
      simp only [List.length_append, List.length_cons]; omega)]

theorem tuple_read {α : Type} {p : Str → Option (α × Str)} {f : α → Str} {x y : α} {xs : List α}
    (h : ∀ z ∈ x :: y :: xs, ReadsBack p f z) (r : Str) [DecidableEq α] :
    Literal.tuple p (reprTuple ((x :: y :: xs).map f) ++ r) = some (x :: y :: xs, r) := by
  have e : reprTuple ((x :: y :: xs).map f) ++ r = u!"(" ++ (f x ++ (((y :: xs).flatMap fun y => u!", " ++ f y) ++ 41 :: r)) := by
    show u!"(" ++ joinWith u!", " ((x :: y :: xs).map f) ++ u!")" ++ r = _
    rw [joinWith_cons]
    simp
  have hx := h x (by simp) (((y :: xs).flatMap fun y => u!", " ++ f y) ++ 41 :: r) (.inl (by simp))
  unfold Literal.tuple
  rw [e, text_read]
  simp only [bind, Option.bind]
  rw [hx]
  dsimp only
  rw [more_read (.inr rfl) (y :: xs) (fun z hz => h z (by simp [hz])) _ r (by
    have := flatMap_length f (y :: xs)
    simp only [List.length_append, List.length_cons] at this ⊢; omega)]
  simp

end Urlstd
