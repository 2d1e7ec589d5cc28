/-
What a successful IPv4 parse says, and its agreement with the standard.
-/
import Verif.Lemmas.IPv4

namespace Urlstd

theorem ipv4Numbers_ok (env : Env) (parts : List Str) : ∀ (acc : List Nat) (log : Log) (ns : List Nat) (log' : Log),
    ipv4Numbers env parts acc log = ⟨.ok ns, log'⟩ →
    ns = acc ++ parts.map (fun p => (parseIPv4Number env p).1.toNat) ∧
    ∀ p ∈ parts, 0 ≤ (parseIPv4Number env p).1 := by
  induction parts with
  | nil =>
    intro acc log ns log' h
    simp only [ipv4Numbers, Res.ok, Res.mk.injEq, Except.ok.injEq] at h
    simp [h.1]
  | cons p ps ih =>
    intro acc log ns log' h
    rw [ipv4Numbers] at h
    dsimp only at h
    split at h
    · simp [Res.err] at h
    · rename_i hp
      obtain ⟨h1, h2⟩ := ih _ _ _ _ h
      refine ⟨by rw [h1]; simp, ?_⟩
      intro q hq
      rcases List.mem_cons.1 hq with rfl | hq
      · omega
      · exact h2 q hq

theorem ipv4Numbers_error (env : Env) (parts : List Str) : ∀ (acc : List Nat) (log : Log) (e : Err) (log' : Log),
    ipv4Numbers env parts acc log = ⟨.error e, log'⟩ → e = .ipv4Parse := by
  induction parts with
  | nil => intro acc log e log' h; simp [ipv4Numbers, Res.ok] at h
  | cons p ps ih =>
    intro acc log e log' h
    rw [ipv4Numbers] at h
    dsimp only at h
    split at h
    · simp only [Res.err, Res.mk.injEq, Except.error.injEq] at h; exact h.1.symm
    · exact ih _ _ _ _ h

/-- everything a successful parse tells -/
theorem ipv4Parse_ok {env : Env} {s : Str} {n : Nat} {log : Log}
    (h : ipv4Parse env s = ⟨.ok n, log⟩) :
    let ns := (partsOf s).map (fun p => (parseIPv4Number env p).1.toNat)
    ns.length ≤ 4 ∧ ns ≠ [] ∧ (∀ p ∈ partsOf s, 0 ≤ (parseIPv4Number env p).1) ∧
    ((∃ v ∈ ns.dropLast, v > 255) → ns.getLastD 0 > 255) ∧
    ns.getLastD 0 < 256 ^ (5 - ns.length) ∧ n = Spec.ipv4Combine ns := by
  intro ns
  rw [ipv4Parse_eq] at h
  dsimp only at h
  split at h
  · simp [Res.err] at h
  · rename_i hlen
    split at h
    · simp [Res.err] at h
    · rename_i numbers log' heq
      obtain ⟨h1, h2⟩ := ipv4Numbers_ok env _ _ _ _ _ heq
      rw [List.nil_append] at h1
      have hns : numbers = ns := h1
      subst hns
      have hl : ns.length ≤ 4 := by
        have : ns.length = (partsOf s).length := by simp [ns]
        omega
      have hne : ns ≠ [] := by
        have := partsOf_ne_nil s
        simpa [ns] using this
      split at h
      · simp [Res.err] at h
      · split at h
        · split at h <;> simp [Res.err] at h
        · rename_i hnl
          split at h
          · split at h <;> simp [Res.err] at h
          · rename_i hlast
            simp only [Res.ok, Res.mk.injEq, Except.ok.injEq] at h
            refine ⟨hl, hne, h2, ?_, by omega, ?_⟩
            · intro ⟨v, hv, hv2⟩
              by_cases hle : ns.getLastD 0 ≤ 255
              · exfalso; apply hnl
                simp only [Bool.and_eq_true, List.any_eq_true, decide_eq_true_eq]
                exact ⟨⟨v, hv, hv2⟩, hle⟩
              · omega
            · rw [← h.1, ipv4Sum_combine hne hl]

theorem ipv4Combine_lt {ns : List Nat} (hl : ns.length ≤ 4) (h : ∀ v ∈ ns.dropLast, v ≤ 255)
    (hlast : ns.getLastD 0 < 256 ^ (5 - ns.length)) : Spec.ipv4Combine ns < 2 ^ 32 := by
  match ns, hl with
  | [], _ => simp [Spec.ipv4Combine]
  | [a], _ => simp [Spec.ipv4Combine] at *; omega
  | [a, b], _ => simp [Spec.ipv4Combine] at *; omega
  | [a, b, c], _ => simp [Spec.ipv4Combine] at *; omega
  | [a, b, c, d], _ => simp [Spec.ipv4Combine] at *; omega

theorem ipv4Parse_error {env : Env} {s : Str} {e : Err} {log : Log}
    (h : ipv4Parse env s = ⟨.error e, log⟩) : e = .ipv4Parse ∨ e = .valueError := by
  rw [ipv4Parse_eq] at h
  dsimp only at h
  split at h
  · simp only [Res.err, Res.mk.injEq, Except.error.injEq] at h; exact .inl h.1.symm
  · split at h
    · rename_i heq
      simp only [Res.err, Res.mk.injEq, Except.error.injEq] at h
      rw [← h.1]; exact .inl (ipv4Numbers_error env _ _ _ _ _ heq)
    · split at h
      · simp only [Res.err, Res.mk.injEq, Except.error.injEq] at h; exact .inr h.1.symm
      · split at h
        · split at h
          · simp only [Res.err, Res.mk.injEq, Except.error.injEq] at h; exact .inr h.1.symm
          · simp only [Res.err, Res.mk.injEq, Except.error.injEq] at h; exact .inl h.1.symm
        · split at h
          · split at h
            · simp only [Res.err, Res.mk.injEq, Except.error.injEq] at h; exact .inr h.1.symm
            · simp only [Res.err, Res.mk.injEq, Except.error.injEq] at h; exact .inl h.1.symm
          · simp [Res.ok] at h

/-- the value, if any -/
def Res.val {α : Type} (r : Res α) : Option α := match r.res with
  | .ok a => some a
  | .error _ => none

theorem pow_le_32 {k : Nat} (h : 1 ≤ k) : 256 ^ (5 - k) ≤ 2 ^ 32 := by
  have : 256 ^ (5 - k) ≤ 256 ^ 4 := Nat.pow_le_pow_right (by omega) (by omega)
  have h2 : (256 : Nat) ^ 4 = 2 ^ 32 := by decide
  omega

theorem mem_dropLast_or_getLast {ns : List Nat} {v : Nat} (h : v ∈ ns) :
    v ∈ ns.dropLast ∨ v = ns.getLastD 0 := by
  have hne : ns ≠ [] := by rintro rfl; simp at h
  rw [getLastD_eq _ _ hne]
  rw [← List.dropLast_concat_getLast hne] at h
  simpa using h

theorem mapM_length {f : Str → Option Nat} : ∀ {l : List Str} {ns : List Nat},
    l.mapM f = some ns → ns.length = l.length := by
  intro l
  induction l with
  | nil => intro ns h; simp at h; simp [h]
  | cons a l ih =>
    intro ns h
    rw [List.mapM_cons] at h
    cases h1 : f a with
    | none => rw [h1] at h; simp at h
    | some b =>
      rw [h1] at h
      cases h2 : l.mapM f with
      | none => rw [h2] at h; simp at h
      | some bs =>
        rw [h2] at h
        simp at h
        rw [← h]; simp [ih h2]

theorem ipv4Parse_agree (env : Env) (he : EnvOK env) (s : Str)
    (hp : ∀ p ∈ Spec.ipv4Parts s, Spec.StrictPart p)
    (hbug : ∀ ns, (Spec.ipv4Parts s).mapM Spec.ipv4Number = some ns →
      ns.getLastD 0 > 255 → ∀ v ∈ ns.dropLast, v ≤ 255) :
    (ipv4Parse env s).val = Spec.ipv4Parse s := by
  rw [ipv4Parse_eq]
  unfold Spec.ipv4Parse
  rw [← partsOf_eq] at hp hbug ⊢
  dsimp only
  generalize hlog : (if ((splitOn 46 s).getLastD []).isEmpty = true then [LogEv.ev .ipv4EmptyPart] else [])
    = log
  split
  · rfl
  · rename_i hlen
    have hne := partsOf_ne_nil s
    rcases ipv4Numbers_agree env he (partsOf s) hp [] log with ⟨ns, log', h1, h2⟩ | ⟨⟨log', h1⟩, h2⟩
    · rw [h1, h2]
      have hl : ns.length = (partsOf s).length := mapM_length h1
      have hns : ns ≠ [] := by
        intro e; rw [e] at hl; simp at hl; exact hne (List.length_eq_zero_iff.1 hl.symm)
      simp only [List.nil_append, Res.ok]
      have hb := hbug ns h1
      by_cases hany : ns.dropLast.any (· > 255) = true
      · -- some part before the last is above 255
        rw [if_pos hany]
        have hle : ns.getLastD 0 ≤ 255 := by
          by_contra hgt
          rw [List.any_eq_true] at hany
          obtain ⟨v, hv, hv2⟩ := hany
          have := hb (by omega) v hv
          simp at hv2; omega
        split
        · rfl
        · rw [if_pos (by rw [hany]; simpa using hle)]
          split <;> rfl
      · have hany' : ns.dropLast.any (· > 255) = false := by simpa using hany
        rw [if_neg hany]
        simp only [hany', Bool.false_and, Bool.false_eq_true, if_false]
        by_cases hlast : ns.getLastD 0 ≥ 256 ^ (5 - ns.length)
        · rw [if_pos hlast]
          split
          · rfl
          · split <;> rfl
        · rw [if_neg hlast, if_neg hlast]
          have hsmall : ∀ v ∈ ns, ¬ (strTooLong env v = true) := by
            intro v hv
            have hv32 : v < 10 ^ 10 := by
              rcases mem_dropLast_or_getLast hv with hv | hv
              · rw [List.any_eq_false] at hany'
                have := hany' v hv
                simp at this; omega
              · have := pow_le_32 (k := ns.length) (by
                  have := List.length_pos_iff.2 hns; omega)
                omega
            have := natDec_length hv32 (by omega)
            unfold strTooLong
            simp only [Bool.and_eq_true, decide_eq_true_eq]
            rcases he with he | he <;> omega
          have htl : ns.any (strTooLong env) = false := by
            rw [List.any_eq_false]; exact hsmall
          rw [htl]
          simp only [Bool.and_false, Bool.false_eq_true, if_false]
          rw [ipv4Sum_combine hns (by omega)]
          rfl
    · rw [h1]
      simp only [Res.err]
      rcases h2 with h2 | ⟨ns, h2, v, hv, hv2⟩
      · rw [h2]; rfl
      · rw [h2]
        have hl : ns.length = (partsOf s).length := mapM_length h2
        have hns : ns ≠ [] := by
          intro e; rw [e] at hl; simp at hl; exact hne (List.length_eq_zero_iff.1 hl.symm)
        simp only
        rcases mem_dropLast_or_getLast hv with hv | hv
        · rw [if_pos]; rfl
          rw [List.any_eq_true]
          exact ⟨v, hv, by simp; omega⟩
        · split
          · rfl
          · rw [if_pos]; rfl
            have := pow_le_32 (k := ns.length) (by
              have := List.length_pos_iff.2 hns; omega)
            omega

end Urlstd
