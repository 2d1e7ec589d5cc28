/-
The characters and numerals of the model are those of the specification.
-/
import Verif.Spec.Host

namespace Urlstd

theorem isDigit_spec : Spec.isDigit = isDigit := rfl
theorem isHex_spec : Spec.isHex = isHex := rfl
theorem isAlnum_spec : Spec.isAlnum = isAlnum := rfl
theorem hexVal_spec : Spec.hexVal = hexVal := rfl
theorem isPySpace_spec : Spec.isPySpace = isPySpace := rfl

theorem natDec_decText (n : Nat) : natDec n = Spec.decText n := by
  suffices H : ∀ fuel n, n ≤ fuel → toDigitsAux 10 (fun d => 48 + d) fuel n = Spec.decText n from
    H n n (Nat.le_refl n)
  intro fuel
  induction fuel with
  | zero =>
    intro n hn
    have : n = 0 := by omega
    subst this
    unfold Spec.decText; rfl
  | succ f ih =>
    intro n hn
    unfold Spec.decText
    rw [toDigitsAux]
    split
    · rfl
    · rename_i h
      rw [ih (n / 10) (by omega)]

theorem dotted_natDec (n : Nat) : Spec.dotted n =
    natDec (n / 2 ^ 24) ++ u!"." ++ natDec (n / 2 ^ 16 % 256) ++ u!"." ++ natDec (n / 2 ^ 8 % 256) ++ u!"." ++ natDec (n % 256) := by
  simp only [natDec_decText, Spec.dotted]

end Urlstd
