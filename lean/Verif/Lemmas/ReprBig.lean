/-
A host that is a number with more digits than `str` converts (C86).
-/
import Verif.Props.Anatomy
import Verif.Lemmas.Repr

set_option linter.unusedSimpArgs false
set_option linter.unusedVariables false

namespace Urlstd

open Spec

variable {env : Env}

theorem strTooLong_iff (n : Nat) : strTooLong env n = true ↔ 0 < env.maxStrDigits ∧ 10 ^ env.maxStrDigits ≤ n := by
  unfold strTooLong
  rw [Bool.and_eq_true, decide_eq_true_eq, decide_eq_true_eq]
  refine and_congr_right fun h0 => ⟨fun h => ?_, fun h => ?_⟩
  · by_cases hn : n < 10 ^ env.maxStrDigits
    · exact absurd (natDec_length hn h0) (by omega)
    · omega
  · by_cases hl : env.maxStrDigits < (natDec n).length
    · exact hl
    · have h1 := numVal_lt _ (natDec_numeral n)
      rw [natDec_val] at h1
      have h2 : 10 ^ (natDec n).length ≤ 10 ^ env.maxStrDigits := Nat.pow_le_pow_right (by decide) (by omega)
      omega

/-- "01" and `k` zeros: 8 to the power of `k` -/
def octal (k : Nat) : Str := 48 :: 49 :: List.replicate k 48

theorem octal_digits (k : Nat) : ∀ c ∈ octal k, isDigit c = true := by
  intro c hc
  simp only [octal, List.mem_cons, List.mem_replicate] at hc
  rcases hc with rfl | rfl | ⟨-, rfl⟩ <;> decide

theorem octal_val (k : Nat) : numVal 8 (49 :: List.replicate k 48) = 8 ^ k := by
  have h0 : ∀ k, numVal 8 (List.replicate k 48) = 0 := by
    intro k
    induction k with
    | zero => rfl
    | succ k ih =>
      rw [List.replicate_succ, numVal_cons, ih]
      rw [show digitValue 48 = 0 from by decide]
      simp
  rw [numVal_cons, h0, List.length_replicate, show digitValue 49 = 1 from by decide]
  omega

theorem octal_number (k : Nat) : parseIPv4Number env (octal k) = (Int.ofNat (8 ^ k), true) := by
  have hnum : IsNumeral 8 (49 :: List.replicate k 48) := by
    intro c hc
    simp only [List.mem_cons, List.mem_replicate] at hc
    rcases hc with rfl | ⟨-, rfl⟩ <;> decide
  have hp := pyInt_numeral env (by decide) hnum (by simp) (fun h => absurd h (by decide))
  rw [octal_val] at hp
  unfold parseIPv4Number octal
  dsimp only
  rw [if_neg (by decide), if_pos (by decide), hp]

theorem number_256 (he : EnvOK env) : parseIPv4Number env u!"256" = (256, false) := by
  have hnum : IsNumeral 10 u!"256" := by
    intro c hc
    simp only [List.mem_cons, List.not_mem_nil, or_false] at hc
    rcases hc with rfl | rfl | rfl <;> decide
  have hp := pyInt_numeral env (by decide) hnum (by simp) (fun _ => by
    rcases he with h | h
    · exact .inl h
    · exact .inr (by simp; omega))
  rw [show numVal 10 u!"256" = 256 from by decide] at hp
  unfold parseIPv4Number
  dsimp only
  rw [if_neg (by decide), if_neg (by decide), hp]
  rfl

/-- "01000...0.256" -/
def hugeHost (k : Nat) : Str := octal k ++ u!".256"

theorem hugeHost_split (k : Nat) : splitOn 46 (hugeHost k) = [octal k, u!"256"] := by
  have : ∀ s : Str, (∀ c ∈ s, c ≠ 46) → splitOn 46 (s ++ u!".256") = [s, u!"256"] := by
    intro s hs
    induction s with
    | nil => decide
    | cons c s ih =>
      rw [List.cons_append]
      unfold splitOn
      rw [if_neg (hs c (by simp)), ih fun x hx => hs x (by simp [hx])]
  refine this _ fun c hc => ?_
  have := octal_digits k c hc
  rw [isDigit_iff] at this
  omega

theorem hugeHost_ipv4 (he : EnvOK env) (hv : env.validity = false) {k : Nat} (hk : 3 ≤ k) :
    (ipv4Parse env (hugeHost k)).res = .ok (256 + 8 ^ k * 256 ^ 3) := by
  have h8 : 255 < 8 ^ k := Nat.lt_of_lt_of_le (by decide : 255 < 8 ^ 3) (Nat.pow_le_pow_right (by decide) hk)
  have hnums : ∀ log, ipv4Numbers env [octal k, u!"256"] [] log = .ok [8 ^ k, 256] (.ev .ipv4NonDecimalPart :: log) := by
    intro log
    simp only [ipv4Numbers, octal_number, number_256 he]
    have h1 : ¬ ((Int.ofNat (8 ^ k)) < 0) := by
      have : (0 : Int) ≤ Int.ofNat (8 ^ k) := Int.natCast_nonneg _
      omega
    rw [if_neg h1, show (Int.ofNat (8 ^ k)).toNat = 8 ^ k from rfl]
    simp
  unfold ipv4Parse
  rw [hugeHost_split]
  dsimp only [List.getLastD_cons, List.getLastD_nil, List.length_cons, List.length_nil]
  have he1 : (([octal k, u!"256"] : List Str).getLastD []).isEmpty = false := rfl
  simp only [List.getLastD_cons, List.getLastD_nil, List.isEmpty_cons, Bool.false_and, Bool.false_eq_true, if_false]
  rw [if_neg (by simp), hnums]
  simp only [hv, Bool.and_false, Bool.false_and, Bool.false_eq_true, if_false]
  simp [ipv4Sum, Res.ok]

theorem hugeHost_ends {k : Nat} : isEndsInANumber env (hugeHost k) = true := by
  unfold isEndsInANumber
  rw [hugeHost_split]
  rfl

theorem hugeHost_chars (k : Nat) : ∀ c ∈ hugeHost k, isDigit c = true ∨ c = 46 := by
  intro c hc
  rcases List.mem_append.1 hc with hc | hc
  · exact .inl (octal_digits k c hc)
  · simp only [List.mem_cons, List.not_mem_nil, or_false] at hc
    rcases hc with rfl | rfl | rfl | rfl
    · exact .inr rfl
    all_goals exact .inl (by decide)

theorem hugeHost_host (he : EnvOK env) (hi : IdnaOK env) (hv : env.validity = false) {k : Nat} (hk : 3 ≤ k) :
    (hostParse env (hugeHost k) false).res = .ok (.ipv4 (256 + 8 ^ k * 256 ^ 3)) := by
  have hch := hugeHost_chars k
  have hpl : ∀ c ∈ hugeHost k, c < 128 ∧ c ≠ 37 ∧ c ≠ 91 ∧ isForbiddenDomain c = false := by
    intro c hc
    rcases hch c hc with h | h
    · rw [isDigit_iff] at h
      refine ⟨by omega, by omega, by omega, ?_⟩
      unfold isForbiddenDomain isForbiddenHost isC0
      simp only [List.contains_eq_mem, List.mem_cons, List.not_mem_nil, or_false, Bool.or_eq_false_iff,
        decide_eq_false_iff_not, beq_eq_false_iff_ne]
      omega
    · subst h; decide
  have hne : hugeHost k ≠ [] := by simp [hugeHost]
  have hpd := decode_plain (s := hugeHost k) (fun c hc => ⟨(hpl c hc).1, (hpl c hc).2.1⟩)
  have hdom := hi.digits _ hne hch
  have hnum := hugeHost_ends (env := env) (k := k)
  have hparse := hugeHost_ipv4 he hv hk
  have hf : ¬ (hugeHost k).any isForbiddenDomain = true := by
    simp only [Bool.not_eq_true, List.any_eq_false]
    exact fun x hx => by simp [(hpl x hx).2.2.2]
  generalize hugeHost k = s at *
  unfold hostParse
  cases s with
  | nil => exact absurd rfl hne
  | cons c cs =>
    have hc91 : c ≠ 91 := (hpl c (by simp)).2.2.1
    dsimp only
    rw [if_neg hc91, if_neg (by simp), hpd, hdom]
    simp only [Res.ok]
    rw [if_neg hf, if_pos hnum]
    rcases hr : ipv4Parse env (c :: cs) with ⟨r, log⟩
    rw [hr] at hparse
    dsimp only at hparse
    rw [hparse]

theorem hugeHost_parse (he : EnvOK env) (hi : IdnaOK env) (hv : env.validity = false) {k : Nat} (hk : 3 ≤ k) :
    (parseUrl env (u!"http://" ++ hugeHost k)).res =
      .ok { scheme := u!"http", host := some (.ipv4 (256 + 8 ^ k * 256 ^ 3)), path := .list [[]] } := by
  have hch : ∀ c ∈ hugeHost k, 46 ≤ c ∧ c ≤ 57 ∧ c ≠ 47 := by
    intro c hc
    rcases hugeHost_chars k c hc with h | h
    · rw [isDigit_iff] at h; omega
    · omega
  let p : Parts := { host := hugeHost k }
  have htext : p.text = hugeHost k := by simp [Parts.text, p]
  have hend : ∀ c ∈ hugeHost k, ¬ AuthorityEnd true c := by
    intro c hc h
    have := hch c hc
    unfold AuthorityEnd at h
    omega
  have ok : p.OK true := by
    refine ⟨by simp [p], fun c hc => ⟨hend c hc, ?_⟩, ?_, by simp [p], by simp [p], by simp [p], by simp [p], fun _ _ _ _ => rfl⟩
    · have := hch c hc; omega
    · intro a b hab
      have : 58 ∈ p.host := by rw [hab]; simp
      have := hch 58 this
      omega
  have h := (Props.C81_absolute env u!"http" [] p ⟨_, _, rfl, by decide, by decide⟩ (by decide)
    (by rw [show Spec.isSpecial (Spec.toLower u!"http") = true from by decide]; exact ok)
    (by rw [show Spec.isSpecial (Spec.toLower u!"http") = true from by decide]; simp)
    (by rw [htext]; intro c hc; have := hch c hc; omega)
    (by
      rw [htext]
      intro c hc
      have := hch c hc
      unfold TabOrNewline
      omega)
    (by
      rw [htext]
      intro c hc
      have := hch c (List.mem_of_getLast? hc)
      unfold C0OrSpace
      omega)).1
  rw [htext] at h
  have e : u!"http" ++ u!"://" ++ [] ++ hugeHost k = u!"http://" ++ hugeHost k := rfl
  rw [e] at h
  rw [h]
  have hl : Spec.toLower u!"http" = u!"http" := by decide
  unfold Parts.url
  rw [hl, show Spec.isSpecial u!"http" = true from by decide]
  rw [if_neg (by simp [p, hugeHost])]
  show (match (hostParse env (hugeHost k) false).res, portOf env u!"http" none with
    | .error e, _ => _
    | .ok _, .error e => _
    | .ok h, .ok n => _) = _
  rw [hugeHost_host he hi hv hk]
  rfl

end Urlstd
