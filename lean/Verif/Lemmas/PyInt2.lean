/-
IPv4 addresses in terms of the grammar of `Spec/PyInt`.
-/
import Verif.Lemmas.PyInt
import Verif.Lemmas.IPv4b
import Verif.Lemmas.ValidHost

set_option linter.unusedSimpArgs false
set_option linter.unusedVariables false

namespace Urlstd

open Spec (PyInt PartReads PartsRead Fits Raises Address EndsInNumber TooLong DelOK)

variable {env : Env}

theorem int_ne_neg {a : Int × Bool} {v : Nat} (h : a = (-1, true)) : ¬ a.1 = (v : Int) := by
  rw [h]; intro h; dsimp only at h; omega

theorem partReads_iff (hd : DelOK env) (p : Str) (v : Nat) : (parseIPv4Number env p).1 = (v : Int) ↔ PartReads env p v := by
  unfold PartReads
  have none_case : ∀ {R : Nat} {t : Str}, R ≤ 16 → pyInt env R t = none → ¬ PyInt env R t v := by
    intro R t hR h hp
    rw [← pyInt_exact env hd hR, h] at hp
    cases hp
  unfold parseIPv4Number
  split
  · constructor
    · intro h; dsimp only at h; omega
    · rintro (⟨h, -⟩ | h)
      · cases h
      · exact absurd h (none_case (by decide) (pyInt_nil env 10))
  · rename_i c
    have e : Spec.partRadix [c] = (10, [c]) := by unfold Spec.partRadix; split <;> simp_all
    rw [e]
    split
    · rename_i x hx
      rw [← pyInt_exact env hd (by simp), hx]
      simp
    · rename_i hx
      have := none_case (by decide) hx
      simp [this]
  · rename_i c0 c1 rest
    split
    · rename_i h
      simp only [Bool.and_eq_true, Bool.or_eq_true, beq_iff_eq] at h
      obtain ⟨rfl, h⟩ := h
      have e : Spec.partRadix (48 :: c1 :: rest) = (16, rest) := by unfold Spec.partRadix; simp [h]
      rw [e]
      split
      · rename_i hr
        have hr : rest = [] := by simpa using hr
        subst hr
        have := none_case (R := 16) (t := []) (by decide) (pyInt_nil env 16)
        simp [this, eq_comm]
      · rename_i hr
        have hr : rest ≠ [] := by simpa using hr
        split
        · rename_i x hx
          rw [← pyInt_exact env hd (by simp), hx]
          simp [hr]
        · rename_i hx
          have := none_case (by decide) hx
          simp [this, hr]
    · rename_i h
      split
      · rename_i h0
        have h0 : c0 = 48 := by simpa using h0
        subst h0
        have hc : ¬ (c1 = 120 ∨ c1 = 88) := by
          intro h'; apply h; simp [h']
        have e : Spec.partRadix (48 :: c1 :: rest) = (8, c1 :: rest) := by unfold Spec.partRadix; simp [hc]
        rw [e]
        split
        · rename_i x hx
          rw [← pyInt_exact env hd (by simp), hx]
          simp
        · rename_i hx
          have := none_case (by decide) hx
          simp [this]
      · rename_i h0
        have e : Spec.partRadix (c0 :: c1 :: rest) = (10, c0 :: c1 :: rest) := by
          unfold Spec.partRadix
          split
          · rename_i heq; injection heq with h1 _; subst h1; simp at h0
          · rfl
        rw [e]
        split
        · rename_i x hx
          rw [← pyInt_exact env hd (by simp), hx]
          simp
        · rename_i hx
          have := none_case (by decide) hx
          simp [this]

theorem partsRead_iff (hd : DelOK env) : ∀ (ps : List Str) (vs : List Nat),
    PartsRead env ps vs ↔ (∀ p ∈ ps, 0 ≤ (parseIPv4Number env p).1) ∧ vs = ps.map (fun p => (parseIPv4Number env p).1.toNat) := by
  intro ps
  induction ps with
  | nil =>
    intro vs
    constructor
    · intro h; cases h; simp
    · rintro ⟨-, rfl⟩; exact .nil
  | cons p ps ih =>
    intro vs
    constructor
    · intro h
      cases h with
      | cons h hs =>
        rename_i v vs
        have h := (partReads_iff hd p v).2 h
        obtain ⟨h1, h2⟩ := (ih vs).1 hs
        refine ⟨fun q hq => ?_, ?_⟩
        · rcases List.mem_cons.1 hq with rfl | hq
          · omega
          · exact h1 q hq
        · rw [List.map_cons, ← h2, h]; rfl
    · rintro ⟨h1, rfl⟩
      have h0 := h1 p (by simp)
      refine .cons ((partReads_iff hd p _).1 (by dsimp only; omega)) ((ih _).2 ⟨fun q hq => h1 q (by simp [hq]), rfl⟩)

theorem partsRead_length {ps : List Str} {vs : List Nat} (h : PartsRead env ps vs) : vs.length = ps.length := by
  induction h with
  | nil => rfl
  | cons _ _ ih => simp [ih]

theorem ipv4Numbers_reads (hd : DelOK env) (parts : List Str) : ∀ (acc : List Nat) (log : Log),
    (∃ vs log', PartsRead env parts vs ∧ ipv4Numbers env parts acc log = ⟨.ok (acc ++ vs), log'⟩) ∨
    ((∀ vs, ¬ PartsRead env parts vs) ∧ ∃ log', ipv4Numbers env parts acc log = ⟨.error .ipv4Parse, log'⟩) := by
  induction parts with
  | nil => intro acc log; exact .inl ⟨[], log, .nil, by rw [List.append_nil]; rfl⟩
  | cons p ps ih =>
    intro acc log
    rw [ipv4Numbers]
    dsimp only
    split
    · rename_i hneg
      right
      refine ⟨?_, _, rfl⟩
      intro vs h
      have := ((partsRead_iff hd _ vs).1 h).1 p (by simp)
      omega
    · rename_i hneg
      have hp : PartReads env p (parseIPv4Number env p).1.toNat := (partReads_iff hd p _).1 (by omega)
      rcases ih (acc ++ [(parseIPv4Number env p).1.toNat]) (if (parseIPv4Number env p).2 then .ev .ipv4NonDecimalPart :: log else log) with
        ⟨vs, log', h1, h2⟩ | ⟨h1, log', h2⟩
      · exact .inl ⟨_, log', .cons hp h1, by rw [h2]; simp⟩
      · right
        refine ⟨?_, log', h2⟩
        intro vs h
        cases h with
        | cons h hs => exact h1 _ hs

theorem tooLong_iff (n : Nat) : strTooLong env n = true ↔ TooLong env n := by
  unfold strTooLong TooLong
  rw [Bool.and_eq_true, decide_eq_true_eq, decide_eq_true_eq]
  rw [← Nat.pos_iff_ne_zero]
  refine and_congr_right fun h0 => ⟨fun h => ?_, fun h => ?_⟩
  · by_cases hn : n < 10 ^ env.maxStrDigits
    · exact absurd (natDec_length hn h0) (by omega)
    · omega
  · by_cases hl : env.maxStrDigits < (natDec n).length
    · exact hl
    · have h1 := numVal_lt _ (natDec_numeral n)
      rw [natDec_val] at h1
      have h2 : 10 ^ (natDec n).length ≤ 10 ^ env.maxStrDigits := Nat.pow_le_pow_right (by decide) (by omega)
      omega

/-- what `IPv4Address.parse` does, completely -/
theorem ipv4Parse_exact (hd : DelOK env) (s : Str) :
    (∃ n, (ipv4Parse env s).res = .ok n ∧ Address env s n) ∨
    ((ipv4Parse env s).res = .error .valueError ∧
      (Spec.ipv4Parts s).length ≤ 4 ∧ ∃ vs, PartsRead env (Spec.ipv4Parts s) vs ∧ Raises env vs) ∨
    ((ipv4Parse env s).res = .error .ipv4Parse ∧
      (4 < (Spec.ipv4Parts s).length ∨ (∀ vs, ¬ PartsRead env (Spec.ipv4Parts s) vs) ∨
        ∃ vs, PartsRead env (Spec.ipv4Parts s) vs ∧ ¬ Fits vs ∧ ¬ Raises env vs)) := by
  rw [ipv4Parse_eq]
  dsimp only
  unfold Address
  rw [← partsOf_eq]
  have hne := partsOf_ne_nil s
  generalize partsOf s = parts at hne
  split
  · rename_i hl
    exact .inr (.inr ⟨rfl, .inl hl⟩)
  · rename_i hl
    rcases ipv4Numbers_reads hd parts [] (if ((splitOn 46 s).getLastD []).isEmpty then [.ev .ipv4EmptyPart] else []) with
      ⟨vs, log', h1, h2⟩ | ⟨h1, log', h2⟩
    · rw [h2, List.nil_append]
      have hlen := partsRead_length h1
      have hvne : vs ≠ [] := by rintro rfl; exact hne (List.length_eq_zero_iff.1 (by simpa using hlen.symm))
      have htl : vs.any (strTooLong env) = true ↔ ∃ v ∈ vs, TooLong env v := by
        rw [List.any_eq_true]; simp only [tooLong_iff]
      have hout : vs.any (· > 255) = true ↔ ∃ v ∈ vs, 255 < v := by simp
      have hfit : Fits vs ↔ ¬ (vs.dropLast.any (· > 255) && decide (vs.getLastD 0 ≤ 255)) = true ∧
          ¬ vs.getLastD 0 ≥ 256 ^ (5 - vs.length) := by
        unfold Fits
        rw [Bool.and_eq_true, List.any_eq_true, decide_eq_true_eq, Nat.not_le]
        refine and_congr_left fun _ => ?_
        simp only [decide_eq_true_eq]
        constructor
        · rintro h ⟨⟨v, hv, hv2⟩, h3⟩
          have := h h3 v hv
          omega
        · intro h h3 v hv
          by_contra hv2
          exact h ⟨⟨v, hv, by omega⟩, h3⟩
      have hsum := ipv4Sum_combine hvne (by omega)
      dsimp only
      split
      · rename_i h
        simp only [Bool.and_eq_true] at h
        exact .inr (.inl ⟨rfl, by omega, vs, h1, htl.1 h.2, .inl ⟨h.1.2, hout.1 h.1.1⟩⟩)
      · rename_i h
        have hnr : Fits vs → ¬ Raises env vs := by
          rintro hf ⟨h3, h4 | h4⟩
          · apply h
            rw [htl.2 h3, hout.2 h4.2, h4.1]; rfl
          · exact h4 hf
        split
        · rename_i hb
          have hnf : ¬ Fits vs := fun hf => (hfit.1 hf).1 hb
          split
          · rename_i ht
            exact .inr (.inl ⟨rfl, by omega, vs, h1, htl.1 ht, .inr hnf⟩)
          · rename_i ht
            exact .inr (.inr ⟨rfl, .inr (.inr ⟨vs, h1, hnf, fun hr => ht (htl.2 hr.1)⟩)⟩)
        · rename_i hb
          split
          · rename_i hb2
            have hnf : ¬ Fits vs := fun hf => (hfit.1 hf).2 hb2
            split
            · rename_i ht
              exact .inr (.inl ⟨rfl, by omega, vs, h1, htl.1 ht, .inr hnf⟩)
            · rename_i ht
              exact .inr (.inr ⟨rfl, .inr (.inr ⟨vs, h1, hnf, fun hr => ht (htl.2 hr.1)⟩)⟩)
          · rename_i hb2
            have hf : Fits vs := hfit.2 ⟨hb, hb2⟩
            exact .inl ⟨_, rfl, by omega, vs, h1, hf, hnr hf, hsum⟩
    · rw [h2]
      exact .inr (.inr ⟨rfl, .inr (.inl h1)⟩)

theorem partsRead_unique (hd : DelOK env) {ps : List Str} {vs ws : List Nat} (h : PartsRead env ps vs) (h' : PartsRead env ps ws) :
    vs = ws := by
  rw [((partsRead_iff hd ps vs).1 h).2, ((partsRead_iff hd ps ws).1 h').2]

theorem endsInNumber_iff (hd : DelOK env) (s : Str) : isEndsInANumber env s = true ↔ EndsInNumber env s := by
  rw [isEndsInANumber_eq]
  unfold EndsInNumber
  rw [← partsOf_eq, isDigit_spec]
  have hne := partsOf_ne_nil s
  rw [getLastD_eq _ _ hne, List.getLast?_eq_some_getLast hne]
  generalize (partsOf s).getLast hne = last
  simp only [Bool.or_eq_true, Bool.and_eq_true, Bool.not_eq_true', decide_eq_true_eq, List.all_eq_true, Option.some.injEq]
  have h0 : 0 ≤ (parseIPv4Number env last).1 ↔ ∃ v, PartReads env last v := by
    constructor
    · intro h; exact ⟨_, (partReads_iff hd last (parseIPv4Number env last).1.toNat).1 (by omega)⟩
    · rintro ⟨v, h⟩
      have := (partReads_iff hd last v).2 h
      omega
  rw [h0]
  simp

theorem byteText_iff (hd : DelOK env) (p : Str) (v : Nat) :
    ByteText env p v ↔ (Spec.partRadix p).1 = 10 ∧ PyInt env 10 p v ∧ v ≤ 255 := by
  have flag : (Spec.partRadix p).1 = 10 → parseIPv4Number env p = match pyInt env 10 p with
      | some x => (x, false)
      | none => (-1, true) := by
    intro hr
    unfold parseIPv4Number
    split
    · rw [pyInt_nil]
    · rfl
    · rename_i c0 c1 rest
      by_cases h0 : c0 = 48
      · subst h0
        unfold Spec.partRadix at hr
        simp only at hr
        split at hr <;> cases hr
      · rw [if_neg (by simp [h0]), if_neg (by simp [h0])]
        cases pyInt env 10 (c0 :: c1 :: rest) <;> rfl
  have other : (Spec.partRadix p).1 ≠ 10 → (parseIPv4Number env p).2 = true := by
    intro hr
    unfold parseIPv4Number
    split
    · rfl
    · rename_i c
      exact absurd (by unfold Spec.partRadix; split <;> simp_all) hr
    · rename_i c0 c1 rest
      by_cases h0 : c0 = 48
      · subst h0
        split
        · split
          · rfl
          · split <;> rfl
        · rw [if_pos (by decide)]
          split <;> rfl
      · exfalso
        apply hr
        unfold Spec.partRadix
        split
        · rename_i heq; injection heq with h1 _; exact absurd h1 h0
        · rfl
  unfold ByteText
  by_cases hr : (Spec.partRadix p).1 = 10
  · rw [flag hr, ← pyInt_exact env hd (by decide)]
    cases pyInt env 10 p with
    | none => simp
    | some x => simp [hr]
  · constructor
    · rintro ⟨h, -⟩
      have := other hr
      rw [h] at this
      cases this
    · rintro ⟨h, -⟩; exact absurd h hr

end Urlstd
