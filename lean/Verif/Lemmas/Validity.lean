/-
The validators.
-/
import Verif.Spec.Validity
import Verif.Lemmas.Recording

set_option linter.unusedSimpArgs false
set_option linter.unusedVariables false

namespace Urlstd

open Spec (Consistent IsStr)

theorem consistent_empty : Consistent {} := ⟨⟨fun _ => rfl, fun _ => rfl⟩, rfl, rfl⟩

theorem Consistent.prepend {v : ValidityState} (h : Consistent v) (t : VErr) : Consistent (v.prepend (.ev t)) :=
  ⟨by simp [ValidityState.prepend], by simp [ValidityState.prepend, h.types], by simp [ValidityState.prepend, h.texts]⟩

theorem Consistent.record {log : Log} (hc : Clean log) : ∀ {v : ValidityState}, Consistent v → Consistent (v.record log) := by
  induction log with
  | nil => intro v h; exact h
  | cons e log ih =>
    intro v h
    have hl : Clean log := fun t ht => hc t (List.mem_cons_of_mem _ ht)
    cases e with
    | ev t => exact Consistent.prepend (ih hl h) t
    | broken t => exact absurd List.mem_cons_self (hc t)

theorem consistent_ofLog {log : Log} (hc : Clean log) : Consistent (.ofLog log) :=
  Consistent.record hc consistent_empty

theorem Consistent.iadd {v w : ValidityState} (hv : Consistent v) (hw : Consistent w) : Consistent (v.iadd w) := by
  refine ⟨?_, ?_, ?_⟩
  · simp only [ValidityState.iadd, Bool.and_eq_true, hv.valid, hw.valid]; omega
  · simp [ValidityState.iadd, hv.types, hw.types]
  · simp [ValidityState.iadd, hv.texts, hw.texts]

/-- the number of complete records -/
theorem ofLog_pos {log : Log} (h : Recorded log) : 0 < (ValidityState.ofLog log).validationErrors := by
  obtain ⟨t, ht⟩ := h
  induction log with
  | nil => cases ht
  | cons e log ih =>
    show 0 < ((ValidityState.ofLog log).prepend e).validationErrors
    rcases List.mem_cons.1 ht with rfl | ht
    · exact Nat.succ_pos _
    · have := ih ht
      cases e with
      | ev t => exact Nat.succ_pos _
      | broken t => exact this

theorem ofLog_nil_iff (log : Log) : (ValidityState.ofLog log).valid = true ↔ log = [] := by
  cases log with
  | nil => exact ⟨fun _ => rfl, fun _ => rfl⟩
  | cons e log =>
    refine ⟨fun h => ?_, fun h => by cases h⟩
    change ((ValidityState.ofLog log).prepend e).valid = true at h
    cases e <;> cases h

/-- what holds of a validator's result -/
structure VerdictOK (r : Verdict) : Prop where
  consistent : r.res ≠ .error .valueError → Consistent r.validity
  verdict : ∀ b, r.res = .ok b → b = r.validity.valid

theorem VerdictOK.yes : VerdictOK ⟨.ok true, {}⟩ := ⟨fun _ => consistent_empty, fun b h => by cases h; rfl⟩
theorem VerdictOK.no (t : VErr) : VerdictOK ⟨.ok false, .ofLog [.ev t]⟩ :=
  ⟨fun _ => consistent_ofLog (.cons .nil), fun b h => by cases h; rfl⟩

theorem verdict_eq {v : ValidityState} (h : Consistent v) : (v.validationErrors == 0) = v.valid := by
  cases hv : v.valid with
  | true => simp [h.valid.1 hv]
  | false =>
    have : v.validationErrors ≠ 0 := fun h0 => by rw [h.valid.2 h0] at hv; cases hv
    simp [this]

/-- a failed call whose exception is a URLParseError -/
theorem VerdictOK.caught {α : Type} {e : Err} {log : Log} (h : LogOK (.error e : Except Err α) log) :
    VerdictOK ⟨if e.isURLParseError then .ok false else .error e, .ofLog log⟩ := by
  cases he : e.isURLParseError with
  | true =>
    refine ⟨fun _ => consistent_ofLog (h.clean ?_), fun b hb => ?_⟩
    · intro h'; cases h'; cases he
    · cases hb
      have hr := h.recorded e rfl he
      cases hv : (ValidityState.ofLog log).valid with
      | false => rfl
      | true => rw [(ofLog_nil_iff log).1 hv] at hr; obtain ⟨_, hr⟩ := hr; cases hr
  | false =>
    refine ⟨fun hn => consistent_ofLog (h.clean ?_), fun b hb => by cases hb⟩
    intro h'
    cases h'
    exact hn rfl

theorem VerdictOK.counted {v : ValidityState} (h : Consistent v) : VerdictOK ⟨.ok (v.validationErrors == 0), v⟩ :=
  ⟨fun _ => h, fun b hb => by cases hb; exact verdict_eq h⟩

theorem isValidDomain_ok (env : Env) (d : Str) : VerdictOK (isValidDomain env d) := by
  unfold isValidDomain
  dsimp only
  have ha := domainToAscii_log env.recording d true
  split
  · rename_i heq; rw [heq] at ha; exact .caught ha
  · rename_i heq
    rw [heq] at ha
    have hb := domainToUnicode_log env.recording d true
    split
    · rename_i heq; rw [heq] at hb; exact .caught (hb.append ha.cleanOf)
    · rename_i heq; rw [heq] at hb; exact .counted (consistent_ofLog (hb.cleanOf.append ha.cleanOf))

theorem isValidIPv4Address_ok (env : Env) (s : Str) : VerdictOK (isValidIPv4Address env s) := by
  unfold isValidIPv4Address
  dsimp only
  split
  · exact .no _
  · split
    · exact .no _
    · split
      · exact .no _
      · split
        · exact .no _
        · exact .yes

theorem isValidIPv6Address_ok (env : Env) (s : Str) : VerdictOK (isValidIPv6Address env s) := by
  unfold isValidIPv6Address
  dsimp only
  have h := ipv6Parse_log env.recording s
  split
  · rename_i heq; rw [heq] at h; exact .counted (consistent_ofLog h.cleanOf)
  · rename_i heq; rw [heq] at h; exact VerdictOK.caught h
  · rename_i e hne heq
    rw [heq] at h
    refine ⟨fun hn => consistent_ofLog (h.clean ?_), fun b hb => by cases hb⟩
    intro h'
    cases h'
    exact hn rfl

theorem hostIsValid_ok (env : Env) (s : Str) : VerdictOK (hostIsValid env s) := by
  unfold hostIsValid
  split
  · exact isValidIPv6Address_ok ..
  · split
    · exact isValidIPv4Address_ok ..
    · exact isValidDomain_ok ..

theorem isValidOpaqueHost_ok (env : Env) (s : Str) : VerdictOK (isValidOpaqueHost env s) := by
  unfold isValidOpaqueHost
  split
  · exact .no _
  · split
    · exact isValidIPv6Address_ok ..
    · split
      · exact .yes
      · split
        · exact .no _
        · exact .no _
      · exact .no _

theorem isValidUrlScheme_ok (env : Env) (s : Str) : VerdictOK (isValidUrlScheme env s) := by
  unfold isValidUrlScheme
  dsimp only
  split
  · exact .yes
  · exact .no _

theorem urlIsValid_ok (env : Env) (s : Str) (base : BaseArg) (e : Encoding) : VerdictOK (urlIsValid env s base e) := by
  unfold urlIsValid
  dsimp only
  have h := parseUrl_log env.recording s base e
  split
  · rename_i heq; rw [heq] at h; exact .caught h
  · rename_i u heq
    rw [heq] at h
    refine .counted (Consistent.iadd ((isValidUrlScheme_ok env u.scheme).consistent ?_) (consistent_ofLog h.cleanOf))
    unfold isValidUrlScheme
    dsimp only
    split <;> simp

theorem canParse_log (env : Env) (s : Str) (base : UrlBase) :
    (canParse env s base).res ≠ .error .valueError → Clean (canParse env s base).log := by
  have h := parseUrl_log env.recording s base.arg .utf8
  unfold canParse
  split
  · rename_i heq; rw [heq] at h; exact fun _ => h.cleanOf
  · rename_i e log heq
    rw [heq] at h
    split
    · rename_i he
      intro _
      exact h.clean (by intro h'; cases h'; cases he)
    · intro hn
      exact h.clean (by intro h'; cases h'; exact hn rfl)

theorem err_ne {α : Type} {r : Except Err α} (h : Except.err r ≠ some .valueError) : r ≠ .error .valueError := by
  rintro rfl; exact h rfl

theorem VOp.consistent (env : Env) {v : ValidityState} (hv : Consistent v) (op : VOp) (hs : ∀ w, op.added = some w → Consistent w)
    (hn : ¬ op.RaisesValueError env) : Consistent (op.apply env v).2 := by
  cases op with
  | reset => exact consistent_empty
  | iadd w => exact Consistent.iadd hv (hs w rfl)
  | addTo w => exact Consistent.iadd (hs w rfl) hv
  | parseUrl s base e => exact Consistent.record ((parseUrl_log ..).clean (err_ne hn)) hv
  | hostParse h m => exact Consistent.record ((hostParse_log ..).clean (err_ne hn)) hv
  | ipv4Parse s => exact Consistent.record ((ipv4Parse_log ..).clean (err_ne hn)) hv
  | ipv6Parse s => exact Consistent.record ((ipv6Parse_log ..).clean (err_ne hn)) hv
  | domainToAscii d b => exact Consistent.record ((domainToAscii_log ..).clean (err_ne hn)) hv
  | domainToUnicode d b => exact Consistent.record ((domainToUnicode_log ..).clean (err_ne hn)) hv
  | canParse s base => exact consistent_ofLog (canParse_log _ _ _ (err_ne hn))
  | urlIsValid s base e => exact (urlIsValid_ok ..).consistent (err_ne hn)
  | isValidUrlScheme s => exact (isValidUrlScheme_ok ..).consistent (err_ne hn)
  | hostIsValid s => exact (hostIsValid_ok ..).consistent (err_ne hn)
  | isValidDomain s => exact (isValidDomain_ok ..).consistent (err_ne hn)
  | isValidIPv4Address s => exact (isValidIPv4Address_ok ..).consistent (err_ne hn)
  | isValidIPv6Address s => exact (isValidIPv6Address_ok ..).consistent (err_ne hn)
  | isValidOpaqueHost s => exact (isValidOpaqueHost_ok ..).consistent (err_ne hn)

theorem ValidBase.ok {env : Env} {s : Str} {base : BaseArg} {e : Encoding} {u : Rec} (hs : IsStr s)
    (hb : ValidBase env base) (he : EncOK e) (h : (parseUrl env.recording s base e).res = .ok u) :
    WF false (fun _ _ => True) u := by
  cases base with
  | none => exact (Parsed.wf (hostSpec_true env.recording) (.alone hs he h)).weak
  | str b => exact (Parsed.wf (hostSpec_true env.recording) (.withString hs hb he h)).weak
  | record b =>
    refine basicParse_ok (hostSpec_true env.recording) he ?_ hs h
    intro b' hb'
    cases hb'
    rcases hb with hb | hb | ⟨o, ho, rfl⟩
    · exact (Parsed.wf (hostSpec_true env.quiet) hb).weak
    · exact (Parsed.wf (hostSpec_true env.recording) hb).weak
    · exact (ho.objOK (hostSpec_true env.quiet)).url

end Urlstd
