/-
Addresses without a validation error, and the grammar of `Spec/ErrorFree` with other hosts.
-/
import Verif.Spec.SilentHost
import Verif.Lemmas.ErrorFree4
import Verif.Lemmas.PyInt2

set_option linter.unusedSimpArgs false
set_option linter.unusedVariables false

namespace Urlstd

open Spec (PyInt PartReads DelOK PlainAddress AuthorityText FileAuthority BehindSlashes HierarchicalText ErrorFreeAbsolute
  ErrorFreeRelative ErrorFree)

section
variable {env : Env}

/-! ### Addresses -/

theorem decimalPart_iff (hd : DelOK env) (p : Str) (v : Nat) :
    parseIPv4Number env p = ((v : Int), false) ↔ (Spec.partRadix p).1 = 10 ∧ PyInt env 10 p v := by
  have key : ∀ {t : Str}, (match pyInt env 10 t with | some v => (v, false) | none => ((-1 : Int), true)) = ((v : Int), false) ↔ PyInt env 10 t v := by
    intro t
    rw [← pyInt_exact env hd (by decide)]
    cases pyInt env 10 t <;> simp
  unfold parseIPv4Number
  split
  · have : ¬ PyInt env 10 [] v := by
      rw [← pyInt_exact env hd (by decide), pyInt_nil]
      simp
    simp [this]
  · rename_i c
    have e : Spec.partRadix [c] = (10, [c]) := by unfold Spec.partRadix; split <;> simp_all
    rw [e]
    refine key.trans ?_
    simp
  · rename_i c0 c1 rest
    split
    · rename_i h
      simp only [Bool.and_eq_true, Bool.or_eq_true, beq_iff_eq] at h
      obtain ⟨rfl, h⟩ := h
      have e : Spec.partRadix (48 :: c1 :: rest) = (16, rest) := by unfold Spec.partRadix; simp [h]
      rw [e]
      split
      · simp
      · split <;> simp
    · rename_i h
      split
      · rename_i h0
        have h0 : c0 = 48 := by simpa using h0
        subst h0
        have hc : ¬ (c1 = 120 ∨ c1 = 88) := by
          intro h'; apply h; simp [h']
        have e : Spec.partRadix (48 :: c1 :: rest) = (8, c1 :: rest) := by unfold Spec.partRadix; simp [hc]
        rw [e]
        split <;> simp
      · rename_i h0
        have e : Spec.partRadix (c0 :: c1 :: rest) = (10, c0 :: c1 :: rest) := by
          unfold Spec.partRadix
          split
          · rename_i heq; injection heq with h1 _; subst h1; simp at h0
          · rfl
        rw [e]
        refine key.trans ?_
        simp

/-- the numbers of the parts, if they are all plain -/
theorem ipv4Numbers_silent (ps : List Str) : ∀ (ns rs : List Nat) (log : Log), ipv4Numbers env ps ns log = ⟨.ok rs, []⟩ ↔
    log = [] ∧ ∃ vs : List Nat, ps.map (parseIPv4Number env) = vs.map (fun v : Nat => ((v : Int), false)) ∧ rs = ns ++ vs := by
  induction ps with
  | nil =>
    intro ns rs log
    unfold ipv4Numbers
    constructor
    · intro h; cases h; exact ⟨rfl, [], rfl, by simp⟩
    · rintro ⟨rfl, vs, h, rfl⟩
      cases vs with
      | nil => simp [Res.ok]
      | cons v vs => cases h
  | cons p ps ih =>
    intro ns rs log
    unfold ipv4Numbers
    dsimp only
    rcases hp : parseIPv4Number env p with ⟨x, b⟩
    by_cases hx : x < 0
    · rw [if_pos hx]
      constructor
      · intro h; cases h
      · rintro ⟨-, vs, h, -⟩
        cases vs with
        | nil => cases h
        | cons v vs =>
          rw [List.map_cons, List.map_cons, hp] at h
          injection h with h1 h2
          injection h1 with h1 h3
          omega
    · rw [if_neg hx, ih]
      constructor
      · rintro ⟨hl, vs, h, rfl⟩
        cases b with
        | true => cases hl
        | false =>
          refine ⟨hl, x.toNat :: vs, ?_, by simp⟩
          rw [List.map_cons, List.map_cons, hp, h]
          congr 2
          omega
      · rintro ⟨rfl, vs, h, rfl⟩
        cases vs with
        | nil => cases h
        | cons v vs =>
          rw [List.map_cons, List.map_cons, hp] at h
          injection h with h1 h2
          injection h1 with h1 h3
          subst h1 h3
          exact ⟨rfl, vs, h2, by simp⟩

theorem plain_values (hd : DelOK env) (ps : List Str) :
    (∃ vs : List Nat, ps.map (parseIPv4Number env) = vs.map (fun v : Nat => ((v : Int), false)) ∧ ∀ v ∈ vs, v ≤ 255) ↔
      ∀ p ∈ ps, (Spec.partRadix p).1 = 10 ∧ ∃ v : Nat, v ≤ 255 ∧ PyInt env 10 p v := by
  induction ps with
  | nil =>
    constructor
    · rintro - p hp; cases hp
    · exact fun _ => ⟨[], rfl, by simp⟩
  | cons p ps ih =>
    constructor
    · rintro ⟨vs, h, hv⟩
      cases vs with
      | nil => cases h
      | cons v vs =>
        rw [List.map_cons, List.map_cons] at h
        injection h with h1 h2
        obtain ⟨h3, h4⟩ := (decimalPart_iff hd p v).1 h1
        intro q hq
        rcases List.mem_cons.1 hq with rfl | hq
        · exact ⟨h3, v, hv v (by simp), h4⟩
        · exact ih.1 ⟨vs, h2, fun w hw => hv w (by simp [hw])⟩ q hq
    · intro h
      obtain ⟨h3, v, hv, h4⟩ := h p (by simp)
      obtain ⟨vs, h5, h6⟩ := ih.2 fun q hq => h q (by simp [hq])
      refine ⟨v :: vs, ?_, ?_⟩
      · rw [List.map_cons, List.map_cons, h5, (decimalPart_iff hd p v).2 ⟨h3, h4⟩]
      · intro w hw
        rcases List.mem_cons.1 hw with rfl | hw
        · exact hv
        · exact h6 w hw

theorem ipv4Parse_silent (hd : DelOK env) (a : Str) : (∃ n, ipv4Parse env a = ⟨.ok n, []⟩) ↔ PlainAddress env a := by
  unfold PlainAddress
  rw [strictlySplit_splitOn, ← plain_values hd]
  unfold ipv4Parse
  dsimp only
  have hne : splitOn c!"." a ≠ [] := splitOn_ne_nil _ _
  generalize splitOn c!"." a = parts at hne ⊢
  by_cases he : (parts.getLastD []).isEmpty = true
  · rw [he]
    have hn : ¬ ∃ vs : List Nat, parts.map (parseIPv4Number env) = vs.map (fun v : Nat => ((v : Int), false)) ∧ ∀ v ∈ vs, v ≤ 255 := by
      rw [plain_values hd]
      intro h
      have hm : [] ∈ parts := by
        rw [getLastD_eq _ [] hne] at he
        have := List.getLast_mem hne
        rw [List.isEmpty_iff.1 he] at this
        exact this
      obtain ⟨-, v, -, hp⟩ := h [] hm
      rw [← pyInt_exact env hd (by decide), pyInt_nil] at hp
      cases hp
    refine ⟨?_, fun h => absurd h.2 hn⟩
    rintro ⟨n, h⟩
    exfalso
    generalize (if (true && decide (parts.length > 1)) = true then parts.dropLast else parts) = parts' at h
    split at h
    · cases h
    · split at h
      · cases h
      · rename_i numbers log hnum
        have hl : log ≠ [] := by
          rintro rfl
          have := ((ipv4Numbers_silent _ _ _ _).1 hnum).1
          cases this
        split at h
        · cases h
        · split at h
          · split at h <;> cases h
          · split at h
            · split at h <;> cases h
            · have h := congrArg Res.log h
              change (if _ then _ else _) = [] at h
              split at h
              · cases h
              · exact hl h
  · have he' : (parts.getLastD []).isEmpty = false := by simpa using he
    rw [he']
    simp only [Bool.false_and, Bool.false_eq_true, if_false]
    by_cases h4 : parts.length > 4
    · rw [if_pos h4]
      refine ⟨fun h => (by obtain ⟨n, h⟩ := h; cases h), fun h => absurd h.1 (by omega)⟩
    · rw [if_neg h4]
      constructor
      · rintro ⟨n, h⟩
        refine ⟨by omega, ?_⟩
        split at h
        · cases h
        · rename_i numbers log hnum
          split at h
          · cases h
          · split at h
            · split at h <;> cases h
            · split at h
              · split at h <;> cases h
              · have h := congrArg Res.log h
                change (if _ then _ else _) = [] at h
                split at h
                · cases h
                · rename_i hout
                  subst h
                  obtain ⟨-, vs, h1, h2⟩ := (ipv4Numbers_silent _ _ _ _).1 hnum
                  rw [List.nil_append] at h2
                  subst h2
                  refine ⟨numbers, h1, fun v hv => ?_⟩
                  simp only [List.any_eq_true, decide_eq_true_eq, not_exists, not_and, Nat.not_lt] at hout
                  exact hout v hv
      · rintro ⟨-, vs, h1, h2⟩
        have hnum : ipv4Numbers env parts [] [] = ⟨.ok vs, []⟩ := (ipv4Numbers_silent _ _ _ _).2 ⟨rfl, vs, h1, by simp⟩
        rw [hnum]
        dsimp only
        have hout : (vs.any fun x => decide (x > 255)) = false := by
          rw [List.any_eq_false]
          intro v hv
          have := h2 v hv
          simp
          omega
        have hdrop : (vs.dropLast.any fun x => decide (x > 255)) = false := by
          rw [List.any_eq_false]
          intro v hv
          have := h2 v (List.dropLast_subset _ hv)
          simp
          omega
        have hlen : vs.length = parts.length := by
          have := congrArg List.length h1
          simpa using this.symm
        have hlast : vs.getLastD 0 ≤ 255 := by
          cases vs with
          | nil => simp
          | cons v vs =>
            rw [getLastD_eq _ 0 (by simp)]
            exact h2 _ (List.getLast_mem _)
        have hpow : ¬ vs.getLastD 0 ≥ 256 ^ (5 - vs.length) := by
          have : 256 ^ 1 ≤ 256 ^ (5 - vs.length) := Nat.pow_le_pow_right (by decide) (by omega)
          omega
        rw [hout, hdrop, if_neg hpow]
        exact ⟨_, rfl⟩

/-! ### The grammar with other hosts -/

variable {host host' : Bool → Str → Prop} {digits : Nat → Prop} {base : Option Rec} {s : Str}

theorem AuthorityText.mono {special : Bool} {t : Str} (hh : ∀ sp h, (∀ c ∈ h, c ∈ t) → host sp h → host' sp h)
    (h : AuthorityText host digits special t) : AuthorityText host' digits special t := by
  obtain ⟨h, port, r, rfl, h1, h2, h3⟩ := h
  exact ⟨h, port, r, rfl, h1, hh _ _ (fun c hc => by simp [hc]) h2, h3⟩

theorem FileAuthority.mono {t : Str} (hh : ∀ sp h, (∀ c ∈ h, c ∈ t) → host sp h → host' sp h)
    (h : FileAuthority host t) : FileAuthority host' t := by
  obtain ⟨h, r, rfl, h1, h2, h3⟩ := h
  exact ⟨h, r, rfl, h1, h2.imp id (hh _ _ (fun c hc => by simp [hc])), h3⟩

theorem HierarchicalText.mono {scheme t : Str} (hh : ∀ sp h, (∀ c ∈ h, c ∈ t) → host sp h → host' sp h)
    (h : HierarchicalText host digits scheme t) : HierarchicalText host' digits scheme t := by
  rcases h with ⟨r, rfl, h⟩ | h
  · refine .inl ⟨r, rfl, ?_⟩
    have hr : ∀ sp h, (∀ c ∈ h, c ∈ r) → host sp h → host' sp h :=
      fun sp h hc => hh sp h fun c hm => by simp [hc c hm]
    unfold BehindSlashes at h ⊢
    split
    · rename_i hf
      rw [if_pos hf] at h
      exact FileAuthority.mono hr h
    · rename_i hf
      rw [if_neg hf] at h
      exact AuthorityText.mono hr h
  · exact .inr h

theorem ErrorFree.mono (hh : ∀ sp h, (∀ c ∈ h, c ∈ s) → host sp h → host' sp h) (h : ErrorFree host digits base s) :
    ErrorFree host' digits base s := by
  obtain ⟨h0, ⟨sc, rest, h1, rfl, h2, h3⟩ | ⟨h1, b, h2, h3⟩⟩ := h
  · refine ⟨h0, .inl ⟨sc, rest, h1, rfl, HierarchicalText.mono (fun sp h hc => hh sp h fun c hm => ?_) h2, h3⟩⟩
    simp [hc c hm]
  · refine ⟨h0, .inr ⟨h1, b, h2, ?_⟩⟩
    unfold ErrorFreeRelative at h3 ⊢
    split
    · rename_i p hp
      rw [hp] at h3
      exact h3
    · rename_i p hp
      rw [hp] at h3
      exact HierarchicalText.mono hh h3

end

end Urlstd
