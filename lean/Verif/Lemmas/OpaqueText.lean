/-
The valid opaque-host strings: the code points of IPv6 addresses, and URL units from the checks of the code.
-/
import Verif.Lemmas.Writing4

set_option linter.unusedSimpArgs false
set_option linter.unusedVariables false

namespace Urlstd

open Spec (URLUnits)

/-- the code points of IPv6 addresses -/
def V6Char (c : Nat) : Prop := isHex c = true ∨ c = c!":" ∨ c = c!"."

theorem digit_v6Char {c : Nat} (h : isDigit c = true) : V6Char c := by
  left
  unfold isHex
  simp [h]

theorem v6Hex_chars : ∀ (k v l : Nat) (s : Str), (∀ c ∈ (Spec.v6Hex k v l s).2.2, V6Char c) → ∀ c ∈ s, V6Char c
  | 0, v, l, s => by
    intro h
    cases s <;> exact h
  | k + 1, v, l, [] => fun h => h
  | k + 1, v, l, x :: xs => by
    intro h
    rw [Spec.v6Hex] at h
    split at h
    · rename_i hx
      have ih := v6Hex_chars k _ _ xs h
      intro c hc
      rcases List.mem_cons.1 hc with rfl | hc
      · exact .inl hx
      · exact ih c hc
    · exact h

theorem v4Digits_chars : ∀ (s : Str) (v : Option Nat) (r : Option Nat × Str), Spec.v4Digits v s = some r →
    (∀ c ∈ r.2, V6Char c) → ∀ c ∈ s, V6Char c
  | [], v, r, h => by
    intro _ c hc
    cases hc
  | x :: xs, v, r, h => by
    intro hr
    rw [Spec.v4Digits] at h
    split at h
    · rename_i hx
      split at h
      · cases h
      · split at h
        · cases h
        · have ih := v4Digits_chars xs _ r h hr
          intro c hc
          rcases List.mem_cons.1 hc with rfl | hc
          · exact digit_v6Char hx
          · exact ih c hc
    · cases h
      exact hr

theorem v4Loop_chars : ∀ (k : Nat) (addr : List Nat) (i : Nat) (s : Str) (r : List Nat × Nat),
    Spec.v4Loop k addr i s = some r → ∀ c ∈ s, V6Char c
  | 0, addr, i, s, r, h => by
    rw [Spec.v4Loop] at h
    split at h
    · rename_i hs; subst hs
      intro c hc; cases hc
    · cases h
  | k + 1, addr, i, s, r, h => by
    unfold Spec.v4Loop at h
    have main : ∀ t : Str, (match (some t : Option Str) with
        | none => none
        | some [] => none
        | some (c :: t) =>
          if isDigit c then
            match Spec.v4Digits none (c :: t) with
            | some (some v, rest) =>
              let addr := addr.set i (addr.getD i 0 * 0x100 + v)
              Spec.v4Loop k addr (if k = 2 ∨ k = 0 then i + 1 else i) rest
            | _ => none
          else none) = some r → ∀ c ∈ t, V6Char c := by
      intro t ht
      cases t with
      | nil => intro c hc; cases hc
      | cons x xs =>
        dsimp only at ht
        split at ht
        · split at ht
          · rename_i v rest hd
            exact v4Digits_chars _ _ _ hd (v4Loop_chars k _ _ rest r ht)
          · cases ht
        · cases ht
    dsimp only at h
    by_cases hk : k + 1 = 4
    · rw [if_pos hk] at h
      exact main s h
    · rw [if_neg hk] at h
      split at h
      · cases h
      · cases h
      · rename_i c t hs
        split at hs
        · rename_i t'
          cases hs
          have := main (c :: t) h
          intro x hx
          rcases List.mem_cons.1 hx with rfl | hx
          · exact .inr (.inr rfl)
          · exact this x hx
        · cases hs

theorem v6Loop_chars : ∀ (k : Nat) (s : Str) (addr : List Nat) (compress : Option Nat) (r : List Nat × Nat × Option Nat),
    Spec.v6Loop k addr compress s = some r → ∀ c ∈ s, V6Char c
  | k, [], addr, compress, r, h => by intro c hc; cases hc
  | 0, x :: xs, addr, compress, r, h => by
    rw [Spec.v6Loop] at h
    cases h
  | k + 1, x :: xs, addr, compress, r, h => by
    rw [Spec.v6Loop] at h
    split at h
    · rename_i hx
      split at h
      · cases h
      · have ih := v6Loop_chars k xs _ _ r h
        intro c hc
        rcases List.mem_cons.1 hc with rfl | hc
        · exact .inr (.inl hx)
        · exact ih c hc
    · split at h
      · split at h
        · cases h
        · split at h
          · cases h
          · rw [Option.map_eq_some_iff] at h
            obtain ⟨r', h, -⟩ := h
            exact v4Loop_chars _ _ _ _ _ h
      · rename_i hv
        refine v6Hex_chars 4 0 0 _ ?_
        rw [hv]
        intro c hc; cases hc
      · rename_i hv
        split at h
        · cases h
        · refine v6Hex_chars 4 0 0 _ ?_
          rw [hv]
          intro c hc
          rcases List.mem_cons.1 hc with rfl | hc
          · exact .inr (.inl rfl)
          · exact v6Loop_chars k _ _ _ r h c hc
      · cases h

/-- a text that the IPv6 parser accepts has hex digits, colons and dots only -/
theorem specIpv6_chars {a : Str} (h : (Spec.ipv6Parse a).isSome = true) : ∀ c ∈ a, V6Char c := by
  unfold Spec.ipv6Parse at h
  dsimp only at h
  split at h
  · cases h
  all_goals
    rename_i hs
    split at hs
    · have := v6Loop_chars _ _ _ _ _ hs
      intro c hc
      rcases List.mem_cons.1 hc with rfl | hc
      · exact .inr (.inl rfl)
      rcases List.mem_cons.1 hc with rfl | hc
      · exact .inr (.inl rfl)
      exact this c hc
    · cases hs
    · exact v6Loop_chars _ _ _ _ _ hs

/-- URL units from the two checks of the standard -/
theorem units_of_checks {ex : Nat → Prop} : ∀ {s : Str}, (∀ c ∈ s, Spec.URLCodePoint c ∨ c = c!"%") → (∀ c ∈ s, ¬ ex c) →
    Spec.badEscape s = false → URLUnits ex s
  | [], _, _, _ => .nil
  | c :: s, h1, h2, h3 => by
    rw [Spec.badEscape, Bool.or_eq_false_iff] at h3
    by_cases hc : c = c!"%"
    · subst hc
      have h4 : Spec.startsWithTwoHex s = true := by
        have := h3.1
        simpa using this
      match s, h4 with
      | a :: b :: t, h4 =>
        simp only [Spec.startsWithTwoHex, Bool.and_eq_true] at h4
        have h5 := h3.2
        rw [Spec.badEscape, Spec.badEscape, Bool.or_eq_false_iff, Bool.or_eq_false_iff] at h5
        exact .byte h4.1 h4.2 (units_of_checks (fun c hc => h1 c (by simp [hc])) (fun c hc => h2 c (by simp [hc])) h5.2.2)
    · exact .point ((h1 c (by simp)).resolve_right hc) (h2 c (by simp))
        (units_of_checks (fun x hx => h1 x (by simp [hx])) (fun x hx => h2 x (by simp [hx])) h3.2)

/-- `is_url_units` finds nothing exactly in the texts of URL units, if the excluded code points are not hex digits or "%" -/
theorem urlUnitsError_iff {exc : Nat → Bool} (hx : ∀ c, isHex c = true ∨ c = c!"%" → exc c = false) (s : Str) :
    urlUnitsError exc s = none ↔ URLUnits (fun c => exc c = true) s := by
  rw [urlUnitsError_none_iff]
  constructor
  · rintro ⟨h1, h2⟩
    rw [List.any_eq_false] at h1
    unfold urlUnitsError at h2
    split at h2
    · cases h2
    · rename_i h3
      split at h2
      · cases h2
      · rename_i h4
        rw [List.find?_eq_none] at h3 h4
        refine units_of_checks (fun c hc => ?_) h1 ?_
        · have := h3 c hc
          rw [urlCodePoint_iff]
          cases hu : isUrlCP c with
          | true => exact .inl rfl
          | false => right; simpa [hu] using this
        · rw [badEscape_eq, List.any_eq_false]
          exact h4
  · intro h
    refine ⟨?_, urlUnitsError_units h⟩
    rw [List.any_eq_false]
    intro c hc
    rcases units_char h c hc with h | h | h
    · rw [hx c (.inl h)]; simp
    · rw [hx c (.inr h)]; simp
    · exact h.2

theorem forbiddenHost_not_hex (c : Nat) (h : isHex c = true ∨ c = c!"%") : isForbiddenHost c = false := by
  cases hf : isForbiddenHost c with
  | false => rfl
  | true =>
    rw [isForbiddenHost_iff] at hf
    unfold Spec.ForbiddenHostCP at hf
    rcases h with h | rfl
    · have := hex_lt h; omega
    · omega

end Urlstd
