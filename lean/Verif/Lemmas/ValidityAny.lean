/-
How many records of a call are incomplete.
-/
import Verif.Lemmas.Validity
import Verif.Spec.ValidityAny

set_option linter.unusedSimpArgs false
set_option linter.unusedVariables false

namespace Urlstd

open Spec

theorem bounded_empty : Bounded {} 0 := ⟨⟨fun _ => rfl, fun _ => rfl⟩, rfl, Nat.le_refl _, Nat.le_refl _⟩

theorem Spec.Bounded.mono {v : ValidityState} {n m : Nat} (h : Bounded v n) (hm : n ≤ m) : Bounded v m :=
  ⟨h.valid, h.texts, h.lower, by have := h.upper; omega⟩

theorem Spec.Bounded.ev {v : ValidityState} {n : Nat} (h : Bounded v n) (t : VErr) : Bounded (v.prepend (.ev t)) n := by
  refine ⟨by simp [ValidityState.prepend], by simp [ValidityState.prepend, h.texts], ?_, ?_⟩
  · have := h.lower; simp [ValidityState.prepend]; omega
  · have := h.upper; simp [ValidityState.prepend]; omega

theorem Spec.Bounded.brk {v : ValidityState} {n : Nat} (h : Bounded v n) (t : VErr) :
    Bounded (v.prepend (.broken t)) (n + 1) := by
  refine ⟨by simp [ValidityState.prepend], by simp [ValidityState.prepend, h.texts], ?_, ?_⟩
  · have := h.lower; simp [ValidityState.prepend]; omega
  · have := h.upper; simp [ValidityState.prepend]; omega

theorem Spec.Bounded.clean {v : ValidityState} {n : Nat} (h : Bounded v n) {log : Log} (hc : Clean log) :
    Bounded (v.record log) n := by
  induction log with
  | nil => exact h
  | cons e log ih =>
    have hl : Clean log := fun t ht => hc t (List.mem_cons_of_mem _ ht)
    cases e with
    | ev t => exact Bounded.ev (ih hl) t
    | broken t => exact absurd List.mem_cons_self (hc t)

theorem Spec.Bounded.record {α : Type} {v : ValidityState} {n : Nat} (h : Bounded v n) {res : Except Err α} {log : Log}
    (hl : LogOK res log) :
    Bounded (v.record log) (n + if Except.err res = some .valueError then 1 else 0) := by
  split
  · rcases hl.once with hc | ⟨t, l, rfl, hc⟩
    · exact (h.clean hc).mono (by omega)
    · exact Bounded.brk (h.clean hc) t
  · rename_i hne
    exact h.clean (hl.clean (by rintro rfl; exact hne rfl))

theorem Spec.Bounded.iadd {v w : ValidityState} {n m : Nat} (hv : Bounded v n) (hw : Bounded w m) :
    Bounded (v.iadd w) (n + m) := by
  have h1 := hv.lower; have h2 := hw.lower; have h3 := hv.upper; have h4 := hw.upper
  refine ⟨?_, ?_, ?_, ?_⟩
  · simp only [ValidityState.iadd, Bool.and_eq_true, hv.valid, hw.valid, List.append_eq_nil_iff]
  · simp [ValidityState.iadd, hv.texts, hw.texts]
  · simp only [ValidityState.iadd, List.length_append]; omega
  · simp only [ValidityState.iadd, List.length_append]; omega

theorem Spec.Consistent.bounded {v : ValidityState} (h : Consistent v) : Bounded v 0 := by
  refine ⟨?_, h.texts, Nat.le_of_eq h.types.symm, Nat.le_of_eq h.types⟩
  rw [h.valid, ← h.types, List.length_eq_zero_iff]

theorem Spec.Bounded.consistent {v : ValidityState} (h : Bounded v 0) : Consistent v := by
  have h1 := h.lower; have h2 := h.upper
  have ht : v.errorTypes.length = v.validationErrors := by omega
  exact ⟨by rw [h.valid, ← ht, List.length_eq_zero_iff], ht, h.texts⟩

/-- the bound after a validator -/
theorem Verdict.bounded {r : Verdict} (h : VerdictOK r) (hv : r.res = .error .valueError → Bounded r.validity 1) :
    Bounded r.validity (if Except.err r.res = some .valueError then 1 else 0) := by
  split
  · rename_i he
    refine hv ?_
    cases hr : r.res with
    | ok a => rw [hr] at he; cases he
    | error e => rw [hr] at he; cases he; rfl
  · rename_i hne
    exact Consistent.bounded (h.consistent (by rintro h; rw [h] at hne; exact hne rfl))

/-! ### The IPv6 parser has no incomplete record -/

theorem v6IPv4_clean (env : Env) (st : V6) (b : Bool) : Clean (v6IPv4 env st b).log := by
  unfold v6IPv4
  dsimp only
  repeat' (first | exact .nil | exact .cons .nil | split)

theorem v6Piece_clean (env : Env) (st : V6) (b : Bool) : Clean (v6Piece env st b).log := by
  unfold v6Piece
  repeat' (first | exact .nil | exact .cons .nil | exact v6IPv4_clean _ _ _ | split)

theorem v6Loop_clean (env : Env) (s : Str) : ∀ st : V6, Clean (v6Loop env s st).log := by
  induction s with
  | nil =>
    intro st
    unfold v6Loop
    repeat' (first | exact .nil | exact .cons .nil | exact v6Piece_clean _ _ _ | split)
  | cons c cs ih =>
    intro st
    unfold v6Loop
    repeat' (first | exact .nil | exact .cons .nil | exact ih _ | split)
    rename_i heq
    have := v6Piece_clean env st true
    rw [heq] at this
    exact this

theorem ipv6Parse_clean (env : Env) (s : Str) : Clean (ipv6Parse env s).log := by
  have hr : ∀ rest st, Clean (v6Run env rest st).log := by
    intro rest st
    unfold v6Run
    have hp := v6Loop_clean env rest st
    split
    · rename_i heq; rw [heq] at hp; exact hp
    · unfold v6Finish
      repeat' (first | exact .nil | exact .cons .nil | split)
  unfold ipv6Parse
  dsimp only
  split
  · exact .cons .nil
  · exact hr _ _

theorem isValidIPv6Address_consistent (env : Env) (s : Str) : Consistent (isValidIPv6Address env s).validity := by
  unfold isValidIPv6Address
  have h := consistent_ofLog (ipv6Parse_clean env.recording s)
  dsimp only
  split <;> exact h

theorem bounded_ofLog {α : Type} {res : Except Err α} {log : Log} (h : LogOK res log) : Bounded (.ofLog log) 1 :=
  (Bounded.record bounded_empty h).mono (by split <;> omega)

theorem VOp.bounded_record (env : Env) (op : VOp) (hr : ¬ op.Resets) (ha : op.added = none) {v : ValidityState} {n : Nat}
    (hv : Bounded v n) : Bounded (op.apply env v).2 (n + op.failures env) := by
  cases op with
  | parseUrl s base e => exact Bounded.record hv (parseUrl_log ..)
  | hostParse h m => exact Bounded.record hv (hostParse_log ..)
  | ipv4Parse s => exact Bounded.record hv (ipv4Parse_log ..)
  | ipv6Parse s => exact Bounded.record hv (ipv6Parse_log ..)
  | domainToAscii d b => exact Bounded.record hv (domainToAscii_log ..)
  | domainToUnicode d b => exact Bounded.record hv (domainToUnicode_log ..)
  | iadd w => cases ha
  | addTo w => cases ha
  | _ => exact absurd trivial hr

theorem isValidIPv4Address_never (env : Env) (s : Str) : (isValidIPv4Address env s).res ≠ .error .valueError := by
  unfold isValidIPv4Address
  dsimp only
  repeat' (first | (intro h; cases h) | split)

theorem isValidDomain_never (env : Env) (s : Str) : (isValidDomain env s).res ≠ .error .valueError := by
  have h1 : (domainToAscii env.recording s true).res ≠ .error .valueError := by
    unfold domainToAscii
    dsimp only
    repeat' (first | (intro h; cases h) | split)
  have h2 : (domainToUnicode env.recording s true).res ≠ .error .valueError := by
    unfold domainToUnicode
    repeat' (first | (intro h; cases h) | split)
  unfold isValidDomain
  dsimp only
  split
  · rename_i e heq
    intro h
    split at h
    · cases h
    · cases h; exact h1 heq
  · split
    · rename_i e heq
      intro h
      split at h
      · cases h
      · cases h; exact h2 heq
    · intro h; cases h

theorem ipv4Numbers_ne (env : Env) (parts : List Str) : ∀ (ns : List Nat) (log : Log),
    (ipv4Numbers env parts ns log).res = .error .valueError → False := by
  induction parts with
  | nil => intro ns log h; cases h
  | cons p ps ih =>
    intro ns log h
    unfold ipv4Numbers at h
    dsimp only at h
    split at h
    · cases h
    · exact ih _ _ h

theorem VOp.bounded_reset (env : Env) (op : VOp) (hr : op.Resets) (v : ValidityState) :
    Bounded (op.apply env v).2 (op.failures env) := by
  have key : ∀ r : Verdict, VerdictOK r → Consistent r.validity →
      Bounded r.validity (if Except.err r.res = some .valueError then 1 else 0) :=
    fun r hr hc => Verdict.bounded hr fun _ => hc.bounded.mono (Nat.zero_le _)
  cases op with
  | reset => exact bounded_empty
  | canParse s base =>
    have hl := parseUrl_log env.recording s base.arg .utf8
    have h1 : Bounded (.ofLog (Urlstd.canParse env s base).log) 1 := by
      have := bounded_ofLog hl
      unfold Urlstd.canParse
      split
      · rename_i heq; rw [heq] at this; exact this
      · rename_i heq; rw [heq] at this; split <;> exact this
    show Bounded _ (if Except.err (Urlstd.canParse env s base).res = some .valueError then 1 else 0)
    split
    · exact h1
    · rename_i hne
      exact (consistent_ofLog (canParse_log _ _ _ (err_ne hne))).bounded
  | urlIsValid s base e =>
    refine Verdict.bounded (urlIsValid_ok ..) fun h => ?_
    have := bounded_ofLog (parseUrl_log env.recording s base e)
    unfold Urlstd.urlIsValid at h ⊢
    dsimp only at h ⊢
    split
    · exact this
    · rename_i heq; rw [heq] at h; cases h
  | isValidUrlScheme s =>
    refine key _ (isValidUrlScheme_ok ..) ((isValidUrlScheme_ok ..).consistent ?_)
    unfold Urlstd.isValidUrlScheme
    dsimp only
    split <;> simp
  | hostIsValid s =>
    refine key _ (hostIsValid_ok ..) ?_
    unfold Urlstd.hostIsValid
    split
    · exact isValidIPv6Address_consistent ..
    · split
      · exact (isValidIPv4Address_ok ..).consistent (isValidIPv4Address_never _ _)
      · exact (isValidDomain_ok ..).consistent (isValidDomain_never _ _)
  | isValidDomain s => exact key _ (isValidDomain_ok ..) ((isValidDomain_ok ..).consistent (isValidDomain_never _ _))
  | isValidIPv4Address s =>
    exact key _ (isValidIPv4Address_ok ..) ((isValidIPv4Address_ok ..).consistent (isValidIPv4Address_never _ _))
  | isValidIPv6Address s => exact key _ (isValidIPv6Address_ok ..) (isValidIPv6Address_consistent ..)
  | isValidOpaqueHost s =>
    refine key _ (isValidOpaqueHost_ok ..) ?_
    unfold Urlstd.isValidOpaqueHost
    repeat' (first | exact isValidIPv6Address_consistent .. | exact consistent_empty | exact consistent_ofLog (.cons .nil) | split)
  | _ => exact hr.elim

/-! ### When exactly a call spoils a state -/

theorem record_length (v : ValidityState) (log : Log) :
    (v.record log).errorTypes.length + v.validationErrors =
      (v.record log).validationErrors + v.errorTypes.length +
        log.countP fun e => match e with | .ev _ => false | .broken _ => true := by
  induction log with
  | nil => simp [ValidityState.record]; omega
  | cons e log ih =>
    cases e with
    | ev t =>
      show ((v.record log).prepend (.ev t)).errorTypes.length + _ = ((v.record log).prepend (.ev t)).validationErrors + _ + _
      rw [List.countP_cons]
      simp [ValidityState.prepend]; omega
    | broken t =>
      show ((v.record log).prepend (.broken t)).errorTypes.length + _ = ((v.record log).prepend (.broken t)).validationErrors + _ + _
      rw [List.countP_cons]
      simp [ValidityState.prepend]; omega

theorem record_consistent_iff {v : ValidityState} (hv : Consistent v) (log : Log) :
    Consistent (v.record log) ↔ Clean log := by
  refine ⟨fun h t ht => ?_, fun h => Consistent.record h hv⟩
  have h1 := record_length v log
  rw [h.types, hv.types] at h1
  have h2 : 0 < log.countP fun e => match e with | .ev _ => false | .broken _ => true :=
    List.countP_pos_iff.2 ⟨_, ht, rfl⟩
  omega

theorem ipv4Parse_broken (env : Env) (hv : env.validity = true) (s : Str) (h : (ipv4Parse env s).res = .error .valueError) :
    ¬ Clean (ipv4Parse env s).log := by
  unfold ipv4Parse at h ⊢
  dsimp only at h ⊢
  simp only [hv, Bool.and_true, if_true] at h ⊢
  generalize (if (_ && _) = true then _ else _ : List Str) = parts at h ⊢
  split at h
  · cases h
  · rename_i hl
    rw [if_neg hl]
    split at h
    · rename_i e log heq
      exact absurd (ipv4Numbers_ne env _ _ _ (by rw [heq]; simpa [Res.err] using h)) id
    · rename_i ns log heq
      split at h
      · rename_i hc; rw [if_pos hc]; exact fun hx => hx _ List.mem_cons_self
      · rename_i hc
        rw [if_neg hc]
        split at h
        · rename_i hc; rw [if_pos hc]
          split at h
          · rename_i hc; rw [if_pos hc]; exact fun hx => hx _ List.mem_cons_self
          · cases h
        · rename_i hc; rw [if_neg hc]
          split at h
          · rename_i hc; rw [if_pos hc]
            split at h
            · rename_i hc; rw [if_pos hc]; exact fun hx => hx _ List.mem_cons_self
            · cases h
          · cases h

end Urlstd
