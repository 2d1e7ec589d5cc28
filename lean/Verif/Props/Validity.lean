/-
Properties C59 to C63: validity objects and validators.
-/
import Verif.Lemmas.ValidHost
import Verif.Spec.Example
import Verif.Props.IPv4

set_option linter.unusedSimpArgs false
set_option linter.unusedVariables false

namespace Urlstd.Props

open Spec (IsStr Consistent dotted)

/-- the example environment with the smallest digit limit CPython accepts -/
def exEnv640 : Env := { exEnv with maxStrDigits := 640 }

/-- a host whose first part is a number of more than 640 decimal digits, written in base 16 -/
def bigHost : Str := u!"0x" ++ List.replicate 540 c!"f" ++ u!".256"

/-! ### C59 -/

/-- C59 is false: `IPv4Address.parse` adds an error type to the state and raises ValueError while it formats the
description, so that there is one error type more than descriptions and counted errors. -/
theorem C59_false_valueError :
    (VOp.apply exEnv640 {} (.ipv4Parse bigHost)).1 = some .valueError ∧
    ¬ Consistent (VOp.apply exEnv640 {} (.ipv4Parse bigHost)).2 := by
  refine ⟨by decide +kernel, fun h => ?_⟩
  have h1 : (VOp.apply exEnv640 {} (.ipv4Parse bigHost)).2.errorTypes.length ≠
      (VOp.apply exEnv640 {} (.ipv4Parse bigHost)).2.validationErrors := by decide +kernel
  exact h1 h.types

/-- C59 without that ValueError: whatever else a program does with a validity object, `valid` is true exactly
when `validation_errors` is 0, and there are `validation_errors` error types and descriptions.  The hypothesis
of `Held` that no call raises ValueError is what is missing from the full claim, which is false. -/
theorem C59_consistent_partial (env : Env) (v : ValidityState) (h : Held env v) : Consistent v := by
  induction h with
  | new => exact consistent_empty
  | op hv ha hn ih iha => exact VOp.consistent env ih _ iha hn

/-- a state with errors from two calls and an addition -/
example : ∃ v, Held exEnv v ∧ v.validationErrors = 5 := by
  have h1 : Held exEnv (VOp.apply exEnv {} (.urlIsValid u!"http://a b/" .none .utf8)).2 :=
    .op .new (by intro w hw; cases hw) (by unfold VOp.RaisesValueError; decide +kernel)
  have h2 : Held exEnv (VOp.apply exEnv {} (.parseUrl u!" http:\\\\a" .none .utf8)).2 :=
    .op .new (by intro w hw; cases hw) (by unfold VOp.RaisesValueError; decide +kernel)
  refine ⟨_, .op (op := .iadd _) h1 (by intro w hw; cases hw; exact h2) (by unfold VOp.RaisesValueError; simp [VOp.apply]), ?_⟩
  decide +kernel

/-! ### C60 -/

/-- C60. What `URLValidator.is_valid` returns is `validity.valid`. -/
theorem C60_verdict (env : Env) (s : Str) (base : BaseArg) (e : Encoding) (b : Bool)
    (h : (urlIsValid env s base e).res = .ok b) : b = (urlIsValid env s base e).validity.valid :=
  (urlIsValid_ok env s base e).verdict b h

/-- C60. If the verdict is true, parsing succeeds with and without recording, and no error is recorded, and the
scheme of the URL is registered. -/
theorem C60_valid (env : Env) (s : Str) (base : BaseArg) (e : Encoding) (hs : IsStr s) (hb : ValidBase env base)
    (he : EncOK e) (h : (urlIsValid env s base e).res = .ok true) :
    ∃ u, parseUrl env.recording s base e = .ok u ∧ (parseUrl env.quiet s base e).res = .ok u ∧
      u.scheme ∈ env.registered := by
  have hv := C60_verdict env s base e true h
  unfold urlIsValid at h hv
  dsimp only at h hv
  rcases hr : parseUrl env.recording s base e with ⟨r, log⟩
  rw [hr] at h hv
  cases r with
  | error err =>
    dsimp only at h
    split at h <;> cases h
  | ok u =>
    have hq : (parseUrl env.quiet s base e).res = .ok u := by
      rcases parseUrl_recording env s base e with h1 | h1
      · rw [← h1, hr]
      · rw [hr] at h1; cases h1
    dsimp only at hv
    have hv := hv.symm
    simp only [ValidityState.iadd, Bool.and_eq_true] at hv
    have hlog := (ofLog_nil_iff log).1 hv.2
    subst hlog
    refine ⟨u, rfl, hq, ?_⟩
    have hw : WF false (fun _ _ => True) u := ValidBase.ok hs hb he (by rw [hr])
    have hsch := hv.1
    unfold isValidUrlScheme at hsch
    dsimp only at hsch
    rw [hw.auth.scheme.pyLower] at hsch
    split at hsch
    · rename_i hc
      simp only [Bool.and_eq_true, List.contains_iff_mem] at hc
      exact hc.2
    · cases hsch

/-- C60. In particular `URL.can_parse` and the constructor agree with a positive verdict. -/
theorem C60_valid_can_parse (env : Env) (s : Str) (base : UrlBase) (hs : IsStr s) (hb : UrlBaseOK env base)
    (h : (urlIsValid env s base.arg .utf8).res = .ok true) :
    canParse env s base = .ok true ∧ ∃ o, URLObj.new env s base = .ok o ∧ o.url.scheme ∈ env.registered := by
  have hb' : ValidBase env base.arg := by
    cases base with
    | none => trivial
    | str b => exact hb
    | url o => exact .inr (.inr ⟨o, hb, rfl⟩)
  obtain ⟨u, h1, h2, h3⟩ := C60_valid env s base.arg .utf8 hs hb' trivial h
  refine ⟨?_, ⟨u, spOfQuery u.query⟩, ?_, h3⟩
  · unfold canParse
    rw [h1]
    rfl
  · unfold URLObj.new
    rw [h2]

/-- C60. Every parse failure records a validation error, in the parser and in the validator. -/
theorem C60_failure_recorded (env : Env) (s : Str) (base : BaseArg) (e : Encoding) (err : Err)
    (h : (parseUrl env s base e).res = .error err) (hf : err.isURLParseError = true) :
    0 < (ValidityState.ofLog (parseUrl env s base e).log).validationErrors :=
  ofLog_pos ((parseUrl_log env s base e).recorded err h hf)

/-- C60. A negative verdict comes with a recorded error as well. -/
theorem C60_negative_recorded (env : Env) (s : Str) (base : BaseArg) (e : Encoding)
    (h : (urlIsValid env s base e).res = .ok false) : 0 < (urlIsValid env s base e).validity.validationErrors := by
  have hv := (urlIsValid_ok env s base e).verdict false h
  have hc := (urlIsValid_ok env s base e).consistent (by rw [h]; simp)
  rcases Nat.eq_zero_or_pos (urlIsValid env s base e).validity.validationErrors with h0 | h0
  · rw [hc.valid.2 h0] at hv; cases hv
  · exact h0

/-- C60. `URLValidator.is_valid_url_scheme` of an ASCII text: whether it is a registered scheme, in any case of its letters. It never raises. -/
theorem C60_scheme (env : Env) (value : Str) (ha : ∀ c ∈ value, c < 128) :
    ∃ b, (isValidUrlScheme env value).res = .ok b ∧ (isValidUrlScheme env value).validity.valid = b ∧
      (b = true ↔ value ≠ [] ∧ value.map (fun c => if c!"A" ≤ c ∧ c ≤ c!"Z" then c + 32 else c) ∈ env.registered) := by
  have e : pyLower env value = value.map (fun c => if c!"A" ≤ c ∧ c ≤ c!"Z" then c + 32 else c) := by
    unfold pyLower
    rw [if_pos (by simpa using ha)]
    unfold lower
    refine List.map_congr_left fun c _ => ?_
    unfold lowerC
    simp
  unfold isValidUrlScheme
  rw [e]
  dsimp only
  split
  · next h =>
    refine ⟨true, rfl, rfl, ?_⟩
    simpa using h
  · next h =>
    refine ⟨false, rfl, rfl, ?_⟩
    simpa using h

example : (isValidUrlScheme exEnv u!"HTTPs").res = .ok true ∧ (isValidUrlScheme exEnv u!"nosuch").res = .ok false := by decide +kernel

example : (urlIsValid exEnv u!"http://h.example/a%20b?q#f").res = .ok true := by decide +kernel
example : (urlIsValid exEnv u!"../x" (.str u!"https://h/a/b/c")).res = .ok true := by decide +kernel
example : (urlIsValid exEnv u!"http://h/a b").res = .ok false := by decide +kernel
example : (urlIsValid exEnv u!"nosuch:a").res = .ok false := by decide +kernel
example : (parseUrl exEnv u!"http://h:x/").res = .error .urlParse := by decide +kernel

/-! ### C61 -/

/-- C61 is false: `can_parse` raises ValueError where the constructor succeeds, because it passes a validity
object and formatting a huge number for its description exceeds the digit limit. -/
theorem C61_false_raises :
    (canParse exEnv640 (u!"http://" ++ bigHost)).res = .error .valueError ∧
    (URLObj.new exEnv640 (u!"http://" ++ bigHost)).toOption.isSome = true := by
  constructor <;> decide +kernel

/-- C61 as far as it is true: whenever `can_parse` returns, its answer is whether the constructor succeeds.
Missing, and false, is that it always returns. -/
theorem C61_predicts_partial (env : Env) (s : Str) (base : UrlBase) (b : Bool)
    (h : (canParse env s base).res = .ok b) : b = true ↔ ∃ o, URLObj.new env s base = .ok o := by
  unfold canParse at h
  unfold URLObj.new
  rcases hr : parseUrl env.recording s base.arg with ⟨r, log⟩
  have hrec := parseUrl_recording env s base.arg .utf8
  rw [hr] at h hrec
  cases r with
  | ok u =>
    rcases hrec with h1 | h1
    · rw [← h1]
      simp only [Res.ok, Except.ok.injEq] at h
      simp [← h]
    · cases h1
  | error err =>
    dsimp only at h
    split at h
    · rename_i herr
      simp only [Res.ok, Except.ok.injEq] at h
      rcases hrec with h1 | h1
      · rw [← h1]
        simp [← h]
      · cases h1; cases herr
    · simp [Res.err] at h

/-- C61. What `can_parse` raises, if anything, is the ValueError of the digit limit, for an overlong input. -/
theorem C61_raises_partial (env : Env) (s : Str) (base : UrlBase) (hs : IsStr s) (hb : UrlBaseOK env base) (err : Err)
    (h : (canParse env s base).res = .error err) :
    err = .valueError ∧ LongInput env (max s.length base.arg.length) := by
  unfold canParse at h
  rcases hr : parseUrl env.recording s base.arg with ⟨r, log⟩
  rw [hr] at h
  cases r with
  | ok u => simp [Res.ok] at h
  | error e =>
    dsimp only at h
    have hp := parseUrl_urlError hs hb (show (parseUrl env.recording s base.arg).res = .error e by rw [hr])
    split at h
    · simp [Res.ok] at h
    · rename_i hn
      simp only [Res.err, Except.error.injEq] at h
      subst h
      rcases hp with hp | hp
      · exact absurd hp hn
      · exact hp

/-- C61. For inputs that are not overlong, `can_parse` returns exactly whether the constructor succeeds. -/
theorem C61_exact_partial (env : Env) (s : Str) (base : UrlBase) (hs : IsStr s) (hb : UrlBaseOK env base)
    (hl : ¬ LongInput env (max s.length base.arg.length)) :
    ∃ b, (canParse env s base).res = .ok b ∧ (b = true ↔ ∃ o, URLObj.new env s base = .ok o) := by
  cases hr : (canParse env s base).res with
  | error err => exact absurd (C61_raises_partial env s base hs hb err hr).2 hl
  | ok b => exact ⟨b, rfl, C61_predicts_partial env s base b hr⟩

example : (canParse exEnv u!"http://h/a b").res = .ok true := by decide +kernel
example : (canParse exEnv u!"//h:99999").res = .ok false := by decide +kernel
/-- without a digit limit no input is overlong -/
example : ¬ LongInput { exEnv with maxStrDigits := 0 } (max (u!"http://h/").length 0) := fun h => h.1 rfl

/-! ### C62 -/

/-- C62 is false: whatever Python's `int()` reads as a number up to 255 is accepted as a part. -/
theorem C62_false_int_syntax :
    (isValidIPv4Address exEnv u!"1_0.0.0.1").res = .ok true ∧ (isValidIPv4Address exEnv u!"+1.0.0.0").res = .ok true ∧
    (isValidIPv4Address exEnv u!" 1.2.3.-0").res = .ok true ∧
    ∀ n, u!"1_0.0.0.1" ≠ dotted n ∧ u!"+1.0.0.0" ≠ dotted n ∧ u!" 1.2.3.-0" ≠ dotted n := by
  refine ⟨by decide +kernel, by decide +kernel, by decide +kernel, fun n => ?_⟩
  have key : ∀ c ∈ dotted n, isDigit c = true ∨ c = 46 := by
    intro c hc
    simp only [dotted_natDec, List.mem_append, List.mem_singleton] at hc
    have hd : ∀ m, ∀ c ∈ natDec m, isDigit c = true := fun m c hc => natDec_digits m c hc
    rcases hc with (((((h | h) | h) | h) | h) | h) | h
    all_goals first | exact .inl (hd _ _ h) | exact .inr h
  refine ⟨fun h => ?_, fun h => ?_, fun h => ?_⟩
  · have := key 95 (by rw [← h]; decide); revert this; decide
  · have := key 43 (by rw [← h]; decide); revert this; decide
  · have := key 45 (by rw [← h]; decide); revert this; decide

/-- C62. Four decimal numbers up to 255 without leading zeros, joined by dots, are a valid IPv4-address string. -/
theorem C62_dotted_valid (env : Env) (he : EnvOK env) (n : Nat) (hn : n < 2 ^ 32) :
    (isValidIPv4Address env (dotted n)).res = .ok true := by
  rw [← C10_ipv4_serialize_dotted n hn, isValidIPv4_iff]
  refine ⟨_, _, _, _, splitOn_ipv4Serialize n, ?_⟩
  intro p hp
  simp only [List.mem_cons, List.not_mem_nil, or_false] at hp
  rcases hp with rfl | rfl | rfl | rfl
  all_goals exact ⟨_, parseIPv4Number_natDec env he (by omega), by omega⟩

/-- C62 for texts whose parts are not among the numerals that only `int()` accepts: with a sign, underscores, white
space or non-ASCII characters. -/
theorem C62_valid_partial (env : Env) (he : EnvOK env) (s : Str)
    (hp : ∀ p ∈ Spec.strictlySplit c!"." [] s, Spec.StrictPart p) :
    (isValidIPv4Address env s).res = .ok true ↔ ∃ n, n < 2 ^ 32 ∧ s = dotted n := by
  constructor
  · intro h
    obtain ⟨a, b, c, d, hsp, hv⟩ := isValidIPv4_iff.1 h
    have hpl : ∀ p ∈ [a, b, c, d], Spec.StrictPart p := by
      rw [strictlySplit_splitOn, hsp] at hp
      exact hp
    obtain ⟨va, ha⟩ := hv a (by simp)
    obtain ⟨vb, hb⟩ := hv b (by simp)
    obtain ⟨vc, hc⟩ := hv c (by simp)
    obtain ⟨vd, hd⟩ := hv d (by simp)
    have la := ha.2
    have lb := hb.2
    have lc := hc.2
    have ld := hd.2
    refine ⟨va * 2 ^ 24 + vb * 2 ^ 16 + vc * 2 ^ 8 + vd, by omega, ?_⟩
    rw [← C10_ipv4_serialize_dotted _ (by omega), ipv4Serialize_of_bytes la lb lc ld,
      ← byteText_plain (hpl a (by simp)) ha, ← byteText_plain (hpl b (by simp)) hb,
      ← byteText_plain (hpl c (by simp)) hc, ← byteText_plain (hpl d (by simp)) hd, ← hsp]
    exact (joinWith_splitOn _ s).symm
  · rintro ⟨n, hn, rfl⟩
    exact C62_dotted_valid env he n hn

/-- C62. Host parsing returns the address that a dotted decimal denotes. -/
theorem C62_host (env : Env) (he : EnvOK env) (hi : IdnaOK env) (n : Nat) (hn : n < 2 ^ 32) :
    hostParse env (dotted n) false = .ok (.ipv4 n) := by
  rw [← C10_ipv4_serialize_dotted n hn, hostParse_ipv4 he hi, Nat.mod_eq_of_lt hn]

/-- C62. Every text with a positive verdict, dotted decimal or not, is parsed as an IPv4 address without a
validation error. -/
theorem C62_valid_parses (env : Env) (s : Str) (h : (isValidIPv4Address env s).res = .ok true) :
    ∃ n, n < 2 ^ 32 ∧ ipv4Parse env s = .ok n := by
  obtain ⟨a, b, c, d, hsp, hv⟩ := isValidIPv4_iff.1 h
  obtain ⟨va, ha⟩ := hv a (by simp)
  obtain ⟨vb, hb⟩ := hv b (by simp)
  obtain ⟨vc, hc⟩ := hv c (by simp)
  obtain ⟨vd, hd⟩ := hv d (by simp)
  have la := ha.2
  have lb := hb.2
  have lc := hc.2
  have ld := hd.2
  exact ⟨_, by omega, ipv4Parse_bytes hsp ha hb hc hd⟩

example : EnvOK exEnv ∧ (∀ p ∈ Spec.strictlySplit c!"." [] u!"192.0.2.33", Spec.StrictPart p) ∧
    (isValidIPv4Address exEnv u!"192.0.2.33").res = .ok true := by
  refine ⟨.inr (by decide), ?_, by decide +kernel⟩
  rw [show Spec.strictlySplit c!"." [] u!"192.0.2.33" = [u!"192", u!"0", u!"2", u!"33"] by decide]
  intro p hp
  simp at hp
  rcases hp with rfl | rfl | rfl | rfl <;> refine ⟨by decide, fun _ => ?_⟩ <;> unfold Spec.RadixText <;> decide
example : (isValidIPv4Address exEnv u!"192.0.2.033").res = .ok false := by decide +kernel
example : (isValidIPv4Address exEnv u!"192.0.2.256").res = .ok false := by decide +kernel

/-! ### C63 -/

/-- C63. A text is a valid IPv6-address string exactly when host parsing accepts it in brackets; no validation
error is recorded then. -/
theorem C63_ipv6 (env : Env) (a : Str) (m : Bool) :
    (isValidIPv6Address env a).res = .ok true ↔
      ∃ p, hostParse env.quiet (u!"[" ++ a ++ u!"]") m = .ok (.ipv6 p) ∧
        hostParse env.recording (u!"[" ++ a ++ u!"]") m = .ok (.ipv6 p) := by
  rw [isValidIPv6_iff, hostParse_bracketed, hostParse_bracketed, ipv6Parse_recording]
  constructor
  · rintro ⟨p, hp⟩
    rw [hp]
    exact ⟨p, rfl, rfl⟩
  · rintro ⟨p, hp, _⟩
    rcases hr : ipv6Parse env.quiet a with ⟨r, log⟩
    rw [hr] at hp
    cases r with
    | ok q =>
      simp only [Res.ok, Res.mk.injEq, Except.ok.injEq, Host.ipv6.injEq] at hp
      exact ⟨q, by rw [hp.2]; rfl⟩
    | error e => simp [Res.err, Res.ok] at hp

/-- C63. A text is a valid opaque-host string exactly when it is not empty and host parsing in non-special mode
accepts it without recording a validation error. -/
theorem C63_opaque (env : Env) (h : Str) :
    (isValidOpaqueHost env h).res = .ok true ↔
      h ≠ [] ∧ ∃ x, hostParse env.quiet h true = .ok x ∧ hostParse env.recording h true = .ok x := by
  rw [isValidOpaque_iff, hostParse_opaque_recording]
  simp

example : (isValidIPv6Address exEnv u!"2001:db8::192.0.2.1").res = .ok true := by decide +kernel
example : (isValidIPv6Address exEnv u!"2001:db8::g").res = .ok false := by decide +kernel
example : (isValidOpaqueHost exEnv u!"a%20b").res = .ok true := by decide +kernel
example : (isValidOpaqueHost exEnv u!"[::1]").res = .ok true := by decide +kernel
example : (isValidOpaqueHost exEnv u!"a b").res = .ok false := by decide +kernel
example : (isValidOpaqueHost exEnv u!"a%2").res = .ok false := by decide +kernel

end Urlstd.Props
