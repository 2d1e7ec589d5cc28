/-
Property C59 for every history, the calls that end in ValueError included.
-/
import Verif.Lemmas.ValidityAny
import Verif.Props.Validity

set_option linter.unusedSimpArgs false
set_option linter.unusedVariables false

namespace Urlstd.Props

open Spec (Consistent Bounded)

/-- C59 for every history.  `valid` is true exactly when no error type is listed, there are as many descriptions
as counted errors, and there are at least as many error types; each call that ended in the bare ValueError since
the last reset accounts for at most one error type that is not counted. -/
theorem C59_always (env : Env) (v : ValidityState) (n : Nat) (h : Used env v n) : Bounded v n := by
  induction h with
  | new => exact bounded_empty
  | reset hv hr ih => exact VOp.bounded_reset env _ hr _
  | record hv hr ha ih => exact VOp.bounded_record env _ hr ha ih
  | iadd hv hw ihv ihw => exact Spec.Bounded.iadd ihv ihw
  | addTo hv hw ihv ihw =>
    rw [Nat.add_comm]
    exact Spec.Bounded.iadd ihw ihv

/-- a state that two failed calls have recorded in, with two error types more than counted errors -/
example : ∃ v, Used exEnv640 v 2 ∧ v.errorTypes.length = v.validationErrors + 2 := by
  have h0 : (VOp.ipv4Parse bigHost).failures exEnv640 = 1 := by decide +kernel
  have h1 := Used.record (op := .ipv4Parse bigHost) (Used.new (env := exEnv640)) id rfl
  have h2 := Used.record (op := .ipv4Parse bigHost) h1 id rfl
  rw [h0] at h2
  exact ⟨_, h2, by decide +kernel⟩

/-- C59: `IPv4Address.parse` spoils a consistent state exactly when it raises ValueError. -/
theorem C59_ipv4 (env : Env) (v : ValidityState) (hv : Consistent v) (s : Str) :
    Consistent ((VOp.ipv4Parse s).apply env v).2 ↔ ¬ (VOp.ipv4Parse s).RaisesValueError env := by
  refine (record_consistent_iff hv _).trans ⟨fun h hr => ?_, fun h => (ipv4Parse_log ..).clean (err_ne h)⟩
  refine ipv4Parse_broken env.recording rfl s ?_ h
  unfold VOp.RaisesValueError at hr
  change Except.err (ipv4Parse env.recording s).res = some .valueError at hr
  cases hx : (ipv4Parse env.recording s).res with
  | ok a => rw [hx] at hr; cases hr
  | error e => rw [hx] at hr; cases hr; rfl

example : Consistent ((VOp.ipv4Parse u!"1.2.3.256").apply exEnv640 {}).2 :=
  (C59_ipv4 exEnv640 {} consistent_empty _).2 (by unfold VOp.RaisesValueError; decide +kernel)

/-- C59: `IPv6Address.parse` and the validator of IPv6 addresses keep a state consistent, whatever they raise. -/
theorem C59_ipv6 (env : Env) (v : ValidityState) (hv : Consistent v) (s : Str) :
    Consistent ((VOp.ipv6Parse s).apply env v).2 ∧ Consistent ((VOp.isValidIPv6Address s).apply env v).2 :=
  ⟨Consistent.record (ipv6Parse_clean _ _) hv, isValidIPv6Address_consistent ..⟩

/-- an IPv6 address that raises ValueError: its dotted part has a number of 641 digits -/
example : (VOp.ipv6Parse (u!"::1.2.3." ++ List.replicate 641 c!"1")).RaisesValueError exEnv640 := by
  unfold VOp.RaisesValueError; decide +kernel

/-- C59: `Host.parse` spoils a consistent state exactly when it raises ValueError for a host that is not in
brackets. -/
theorem C59_host (env : Env) (v : ValidityState) (hv : Consistent v) (h : Str) (m : Bool) :
    Consistent ((VOp.hostParse h m).apply env v).2 ↔
      ¬ ((VOp.hostParse h m).RaisesValueError env ∧ h.head? ≠ some c!"[") := by
  refine (record_consistent_iff hv _).trans ?_
  unfold VOp.RaisesValueError
  show Clean (hostParse env.recording h m).log ↔
    ¬ (Except.err (hostParse env.recording h m).res = some .valueError ∧ h.head? ≠ some c!"[")
  have hl := hostParse_log env.recording h m
  by_cases hr : (hostParse env.recording h m).res = .error .valueError
  · rw [hr]
    by_cases hb : h.head? = some c!"["
    · simp only [hb, ne_eq, not_true_eq_false, and_false, not_false_eq_true, iff_true]
      cases h with
      | nil => cases hb
      | cons c t =>
        obtain rfl : c = c!"[" := by simpa using hb
        unfold hostParse
        dsimp only
        rw [if_pos rfl]
        split
        · exact .cons .nil
        · have hc := ipv6Parse_clean env.recording t.dropLast
          split
          · rename_i heq; rw [heq] at hc; exact hc
          · rename_i heq; rw [heq] at hc; exact hc
    · simp only [Except.err, hb, ne_eq, not_false_eq_true, and_self, not_true_eq_false, iff_false]
      intro hc
      unfold hostParse at hr hc
      cases h with
      | nil => cases hr
      | cons c t =>
        have hb' : c ≠ c!"[" := fun h => hb (by rw [h]; rfl)
        dsimp only at hr hc
        rw [if_neg hb'] at hr hc
        split at hr
        · unfold parseOpaqueHost at hr
          split at hr <;> rename_i heq <;> (split at heq <;> cases heq <;> cases hr)
        · rename_i hm
          rw [if_neg hm] at hc
          split at hr
          · rename_i e log heq
            cases hr
            unfold domainToAscii at heq
            dsimp only at heq
            repeat' (first | (cases heq) | split at heq)
          · rename_i a log heq
            rw [heq] at hc
            dsimp only at hc
            split at hr
            · cases hr
            · rename_i hf
              rw [if_neg hf] at hc
              split at hr
              · rename_i hn
                rw [if_pos hn] at hc
                split at hr
                · cases hr
                · rename_i e log' heq4
                  cases hr
                  rw [heq4] at hc
                  refine ipv4Parse_broken env.recording rfl a (by rw [heq4]) ?_
                  rw [heq4]
                  exact fun t ht => hc t (List.mem_append_left _ ht)
              · cases hr
  · have h1 : Except.err (hostParse env.recording h m).res ≠ some .valueError := by
      intro he
      cases hx : (hostParse env.recording h m).res with
      | ok a => rw [hx] at he; cases he
      | error e => rw [hx] at he; cases he; exact hr hx
    simp only [h1, false_and, not_false_eq_true, iff_true]
    exact hl.clean hr

example : ¬ Consistent ((VOp.hostParse bigHost false).apply exEnv640 {}).2 := by
  rw [C59_host exEnv640 {} consistent_empty]
  have : (VOp.hostParse bigHost false).RaisesValueError exEnv640 := by unfold VOp.RaisesValueError; decide +kernel
  exact fun h => h ⟨this, by decide⟩

end Urlstd.Props
