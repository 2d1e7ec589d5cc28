/-
Properties C63 and C72: the grammar of the valid opaque-host strings.
-/
import Verif.Lemmas.OpaqueText
import Verif.Props.Validity

namespace Urlstd.Props

open Spec (OpaqueHostString URLUnits ForbiddenHostCP)

/-- C63. A text without brackets is a valid opaque-host string for the code exactly when it is one for the standard: one or
more URL units that are not forbidden host code points. -/
theorem C63_opaque_units (env : Env) (h : Str) (hb : h.head? ≠ some c!"[") :
    (isValidOpaqueHost env h).res = .ok true ↔ h ≠ [] ∧ URLUnits ForbiddenHostCP h := by
  have hn : bracketed h = none := by
    cases hb' : bracketed h with
    | none => rfl
    | some a =>
      rw [bracketed_some] at hb'
      subst hb'
      exact absurd rfl hb
  have hf : (fun c => isForbiddenHost c = true) = ForbiddenHostCP := by
    funext c
    exact propext (isForbiddenHost_iff c)
  have hu := urlUnitsError_iff forbiddenHost_not_hex h
  rw [hf] at hu
  rw [← hu]
  unfold isValidOpaqueHost
  cases h with
  | nil => simp
  | cons c t =>
    rw [if_neg (by simp), hn]
    dsimp only
    cases urlUnitsError isForbiddenHost (c :: t) with
    | none => simp
    | some l =>
      simp only [reduceCtorEq, and_false, iff_false]
      split
      · rename_i h; cases h
      · split <;> simp
      · simp

/-- C72 (partial). The valid opaque-host strings of the code are those of the standard.

Missing: texts in brackets for which C15 fails. -/
theorem C72_opaque_grammar_partial (env : Env) (he : EnvOK env) (h : Str) (h6 : ∀ a, h = u!"[" ++ a ++ u!"]" → Spec.Regular6 a) :
    (isValidOpaqueHost env h).res = .ok true ↔ OpaqueHostString h := by
  by_cases hb : h.head? = some c!"["
  · have hnu : ¬ URLUnits ForbiddenHostCP h := by
      intro hu
      cases h with
      | nil => cases hb
      | cons c t =>
        cases hb
        rcases units_char hu c!"[" (by simp) with h | h | h
        · exact absurd h (by decide)
        · exact absurd h (by decide)
        · exact h.2 (by decide)
    unfold OpaqueHostString
    simp only [hnu, and_false, false_or]
    unfold isValidOpaqueHost
    rw [if_neg (by cases h <;> simp at hb ⊢)]
    cases hb' : bracketed h with
    | none =>
      dsimp only
      constructor
      · intro hv
        exfalso
        have : urlUnitsError isForbiddenHost h ≠ none := by
          intro hu
          have := (urlUnitsError_none_iff _ _).1 hu
          have h1 := List.any_eq_false.1 this.1
          cases h with
          | nil => cases hb
          | cons c t =>
            cases hb
            exact h1 c!"[" (by simp) (by decide)
        split at hv
        · contradiction
        · split at hv <;> cases hv
        · cases hv
      · rintro ⟨a, ha, -⟩
        rw [bracketed_some.2 ha] at hb'
        cases hb'
    | some a =>
      dsimp only
      have ea := bracketed_some.1 hb'
      rw [isValidIPv6_iff]
      have key := C15_core (env := env.quiet) he (h6 a ea)
      constructor
      · rintro ⟨p, hp⟩
        rw [hp] at key
        have hs : (Spec.ipv6Parse a).isSome = true := by rw [← key]; rfl
        exact ⟨a, ea, specIpv6_chars hs, hs⟩
      · rintro ⟨a', ha', -, hs⟩
        have : a = a' := by
          rw [ea] at ha'
          exact List.append_cancel_left (List.append_cancel_right ha')
        subst this
        rw [← key] at hs
        rcases hr : ipv6Parse env.quiet a with ⟨r, log⟩
        rw [hr] at hs
        cases r with
        | error e => cases hs
        | ok p => exact ⟨p, ipv6Parse_ok_log hr ▸ rfl⟩
  · rw [C63_opaque_units env h hb]
    unfold OpaqueHostString
    constructor
    · exact .inl
    · rintro (h | ⟨a, rfl, -⟩)
      · exact h
      · exact absurd rfl hb

/-! Texts that meet the hypotheses, with either answer. -/

example : (isValidOpaqueHost exEnv u!"ex%41mple!").res = .ok true ∧ (u!"ex%41mple!" : Str).head? ≠ some c!"[" := by decide +kernel
example : (isValidOpaqueHost exEnv u!"ex%").res = .ok false ∧ (u!"ex%" : Str).head? ≠ some c!"[" := by decide +kernel
example : (isValidOpaqueHost exEnv u!"a:b").res = .ok false := by decide +kernel
example : OpaqueHostString u!"[::1]" := .inr ⟨u!"::1", rfl, by decide, by decide +kernel⟩
example : (isValidOpaqueHost exEnv u!"[::1]").res = .ok true := by decide +kernel

end Urlstd.Props
