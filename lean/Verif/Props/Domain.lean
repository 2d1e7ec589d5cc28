/-
Property C72: the validators for domains and for hosts.
-/
import Verif.Lemmas.Domain
import Verif.Lemmas.PyNumeral
import Verif.Props.Validity

namespace Urlstd.Props

open Spec (IsScalarStr ValidDomain ValidHostString SameVerdict StrictOK StrictPart strictToASCII cleanToUnicode dotted LDH)

/-! ### The example

An IDNA library that maps A–Z to a–z and "①" to "1", and with UseSTD3ASCIIRules reports the error DISALLOWED (bit 7) for
every name that has other code points than letters, digits, hyphens and dots. -/

/-- the mapping -/
def mapped (c : Nat) : Nat := if c = 0x2460 then c!"1" else lowerC c

/-- letters, digits, hyphens and dots -/
def ldh (c : Nat) : Bool := Spec.isAlnum c || c == c!"-" || c == c!"."

/-- the example environment with that library; a leading hyphen is reported as bit 3 -/
def exEnvStd3 : Env := { exEnv with
  nameToAscii := fun strict s =>
    if strict && !(s.map mapped).all ldh then .ok (s.map mapped) 0x80
    else if (s.map mapped).all (· < 128) then .ok (s.map mapped) (if s.head? = some c!"-" then 8 else 0)
    else .failure
  nameToUnicode := fun strict s =>
    if strict && !(s.map mapped).all ldh then .ok (s.map mapped) 0x80 else .ok (s.map mapped) 0 }

/-- the digits and dots of an IPv4 address -/
theorem dotted_no_bracket (n c : Nat) (h : c ∈ ipv4Serialize n) : c ≠ c!"[" := by
  rintro rfl
  rcases ipv4Serialize_digits n _ h with h | h <;> revert h <;> decide

/-! ### C72 -/

/-- C72. A domain has a positive verdict exactly when strict ToASCII gives a text that is not empty, with no other errors
than those about hyphens, and strict ToUnicode has no other errors than those about hyphens and lengths. -/
theorem C72_domain (env : Env) (d : Str) : (isValidDomain env d).res = .ok true ↔
    (strictToASCII (env.nameToAscii true) d).isSome = true ∧ cleanToUnicode (env.nameToUnicode true) d :=
  isValidDomain_iff env d

/-- C72. The validator for domains never raises, for any IDNA library; an error is recorded exactly with a negative
verdict. -/
theorem C72_domain_total (env : Env) (d : Str) :
    ∃ b, (isValidDomain env d).res = .ok b ∧ (b = true ↔ (isValidDomain env d).validity.errorTypes = []) := by
  obtain ⟨b, hb⟩ := isValidDomain_total env d
  refine ⟨b, hb, ?_⟩
  have h1 := (isValidDomain_ok env d).verdict b hb
  have h2 := (isValidDomain_ok env d).consistent (by rw [hb]; simp)
  rw [h1, h2.valid, ← h2.types, List.length_eq_zero_iff]

/-- C72 is false with the standard's definition of a valid domain, which runs ToUnicode on the result of ToASCII: the code
runs it on the domain. Here is a library with which this makes a difference. -/
theorem C72_false_domain :
    let env : Env := { exEnvStd3 with nameToUnicode := fun _ s => .ok s (if s = u!"A" then 0x80 else 0) }
    (isValidDomain env u!"A").res = .ok false ∧ ValidDomain (env.nameToAscii true) (env.nameToUnicode true) u!"A" := by
  refine ⟨by decide +kernel, u!"a", by decide +kernel, u!"a", 0, by decide +kernel, by decide⟩

/-- C72 (partial). The verdict on a domain is the standard's, if the IDNA library does not distinguish the domain from
its ASCII form in this respect.

Missing: a library that does; real ones do not, because ToASCII and ToUnicode begin with the same processing. -/
theorem C72_domain_standard_partial (env : Env) (d : Str)
    (h : SameVerdict (env.nameToAscii true) (env.nameToUnicode true) d) :
    (isValidDomain env d).res = .ok true ↔ ValidDomain (env.nameToAscii true) (env.nameToUnicode true) d := by
  rw [C72_domain]
  unfold ValidDomain
  constructor
  · rintro ⟨h1, h2⟩
    obtain ⟨a, ha⟩ := Option.isSome_iff_exists.1 h1
    exact ⟨a, ha, (h a ha).1 h2⟩
  · rintro ⟨a, ha, h2⟩
    exact ⟨by rw [ha]; rfl, (h a ha).2 h2⟩

/-- C72 is false: "1.2.3" is a valid domain and so a valid host string of the standard, and `is_valid` says no. And a text
that is valid only by the syntax of Python's `int()` is no valid host string, and `is_valid` says yes. -/
theorem C72_false_host :
    ((hostIsValid exEnvStd3 u!"1.2.3").res = .ok false ∧
      ValidHostString (exEnvStd3.nameToAscii true) (exEnvStd3.nameToUnicode true) u!"1.2.3") ∧
    ((hostIsValid exEnvStd3 u!"1_0.0.0.1").res = .ok true ∧
      ¬ ValidHostString (exEnvStd3.nameToAscii true) (exEnvStd3.nameToUnicode true) u!"1_0.0.0.1") := by
  refine ⟨⟨by decide +kernel, .inl ⟨u!"1.2.3", by decide +kernel, u!"1.2.3", 0, by decide +kernel, by decide⟩⟩,
    by decide +kernel, ?_⟩
  rintro (⟨a, ha, _⟩ | ⟨n, _, hn⟩ | ⟨a, ha, _⟩)
  · have : strictToASCII (exEnvStd3.nameToAscii true) u!"1_0.0.0.1" = none := by decide +kernel
    rw [this] at ha; cases ha
  · exact (C62_false_int_syntax.2.2.2 n).1 hn
  · cases ha

/-- C72 (partial). Every text that `is_valid` accepts is a valid host string of the standard.

Missing: texts whose parts are numbers for Python only, IPv6 addresses for which C15 fails, and the libraries of
`C72_false_domain`. -/
theorem C72_host_sound_partial (env : Env) (he : EnvOK env) (host : Str)
    (h4 : (isValidIPv4Address env host).res = .ok true → ∀ p ∈ Spec.strictlySplit c!"." [] host, StrictPart p)
    (h6 : ∀ a, host = u!"[" ++ a ++ u!"]" → Spec.Regular6 a)
    (hd : SameVerdict (env.nameToAscii true) (env.nameToUnicode true) host)
    (h : (hostIsValid env host).res = .ok true) :
    ValidHostString (env.nameToAscii true) (env.nameToUnicode true) host := by
  unfold hostIsValid at h
  cases hb : bracketed host with
  | some a =>
    rw [hb] at h
    right; right
    have e := bracketed_some.1 hb
    obtain ⟨p, hp⟩ := isValidIPv6_iff.1 h
    refine ⟨a, e, ?_⟩
    rw [← C15_core (env := env.quiet) he (h6 a e), hp]
    rfl
  | none =>
    rw [hb] at h
    dsimp only at h
    split at h
    · right; left
      exact (C62_valid_partial env he host (h4 h)).1 h
    · left
      exact (C72_domain_standard_partial env host hd).1 h

/-- C72 (partial). Every valid host string of the standard is accepted by `is_valid`, unless it is a domain that ends in
a number.

Missing: domains that end in a number for the standard or for Python, which `is_valid` only accepts as IPv4 addresses, IPv6
addresses for which C15 fails, and the libraries of `C72_false_domain`. -/
theorem C72_host_complete_partial (env : Env) (he : EnvOK env) (host : Str)
    (hn : ValidDomain (env.nameToAscii true) (env.nameToUnicode true) host →
      isEndsInANumber env host = false ∧ host.head? ≠ some c!"[")
    (h6 : ∀ a, host = u!"[" ++ a ++ u!"]" → Spec.Regular6 a)
    (hd : SameVerdict (env.nameToAscii true) (env.nameToUnicode true) host)
    (h : ValidHostString (env.nameToAscii true) (env.nameToUnicode true) host) :
    (hostIsValid env host).res = .ok true := by
  unfold hostIsValid
  rcases h with h | ⟨n, hlt, rfl⟩ | ⟨a, rfl, ha⟩
  · obtain ⟨h1, h2⟩ := hn h
    have hb : bracketed host = none := by
      cases hb : bracketed host with
      | none => rfl
      | some a =>
        rw [bracketed_some] at hb
        subst hb
        exact absurd rfl h2
    rw [hb]
    dsimp only
    rw [h1, if_neg (by simp)]
    exact (C72_domain_standard_partial env host hd).2 h
  · have hb : bracketed (dotted n) = none := by
      cases hb : bracketed (dotted n) with
      | none => rfl
      | some a =>
        rw [bracketed_some] at hb
        rw [← C10_ipv4_serialize_dotted n hlt] at hb
        have := dotted_no_bracket n c!"[" (by rw [hb]; simp)
        exact absurd rfl this
    rw [hb]
    dsimp only
    rw [← C10_ipv4_serialize_dotted n hlt, isEndsInANumber_serialize, if_pos rfl, C10_ipv4_serialize_dotted n hlt]
    exact C62_dotted_valid env he n hlt
  · rw [bracketed_some.2 rfl]
    dsimp only
    rw [isValidIPv6_iff]
    have := C15_core (env := env.quiet) he (h6 a rfl)
    rw [← this] at ha
    rcases hr : ipv6Parse env.quiet a with ⟨r, log⟩
    rw [hr] at ha
    cases r with
    | error e => cases ha
    | ok p => exact ⟨p, by rw [ipv6Parse_ok_log hr]; rfl⟩

/-- C72 is false: a valid domain need not be accepted by host parsing without a validation error, and not as a domain:
its ASCII form can end in a number. -/
theorem C72_false_accepted :
    (hostIsValid exEnvStd3 u!"a.①").res = .ok true ∧ (hostParse exEnvStd3 u!"a.①" false).res = .error .ipv4Parse := by
  decide +kernel

/-- a domain with a strict ASCII form is accepted by host parsing as that -/
theorem strict_accepted_of (env : Env) (hst : StrictOK env) {d a : Str} (hd : IsScalarStr d)
    (ha : strictToASCII (env.nameToAscii true) d = some a)
    (hen : isEndsInANumber env a = false) :
    hostParse env d false = .ok (.str a) := by
  have hsrc := hst.source d a ha
  have hp : c!"%" ∉ d := fun h => absurd (hsrc _ h (by decide)) (by unfold LDH; decide)
  have hbr : c!"[" ∉ d := fun h => absurd (hsrc _ h (by decide)) (by unfold LDH; decide)
  have hl := hst.result d a ha
  have hs := hst.same d a ha
  rw [← domainToAscii_std] at hs
  have hdec := decode_noPercent hd hp
  cases d with
  | nil => rw [hst.empty] at ha; cases ha
  | cons c t =>
    have hc : c ≠ c!"[" := by rintro rfl; simp at hbr
    unfold hostParse
    dsimp only
    rw [if_neg hc, hdec]
    rcases hr : domainToAscii env (c :: t) false with ⟨r, log⟩
    rw [hr] at hs
    cases r with
    | error e => cases hs
    | ok a' =>
      cases hs
      have hlog := domainToAscii_ok_log hr
      subst hlog
      have hf : a.any isForbiddenDomain = false := by
        rw [List.any_eq_false]
        intro x hx
        rcases hl x hx with h | rfl | rfl
        · have hlt : x < 128 := by
            simp only [isAlnum_spec, isAlnum, isAlpha, isDigit, Bool.or_eq_true, Bool.and_eq_true, decide_eq_true_eq] at h
            omega
          have key : ∀ y < 128, isAlnum y = true → ¬ isForbiddenDomain y = true := by decide
          exact key x hlt h
        · decide
        · decide
      simp only [Bool.false_eq_true, if_false, hf, hen]

theorem strict_accepted (env : Env) (he : EnvOK env) (hst : StrictOK env) {d a : Str} (hd : IsScalarStr d)
    (ha : strictToASCII (env.nameToAscii true) d = some a)
    (hn : Spec.endsInANumber a = false ∧ ∀ p, (Spec.ipv4Parts a).getLast? = some p → StrictPart p) :
    hostParse env d false = .ok (.str a) :=
  strict_accepted_of env hst hd ha (by rw [C12_ends_in_a_number_partial env he a hn.2, hn.1])

/-- C72 (partial). A valid domain is accepted by host parsing, without a validation error and as its ASCII form.

Missing: domains whose ASCII form ends in a number. `StrictOK` says what UseSTD3ASCIIRules does in UTS 46. -/
theorem C72_accepted_partial (env : Env) (he : EnvOK env) (hst : StrictOK env) (d : Str) (hd : IsScalarStr d)
    (h : (isValidDomain env d).res = .ok true)
    (hn : ∀ a, strictToASCII (env.nameToAscii true) d = some a →
      Spec.endsInANumber a = false ∧ ∀ p, (Spec.ipv4Parts a).getLast? = some p → StrictPart p) :
    ∃ a, strictToASCII (env.nameToAscii true) d = some a ∧ hostParse env d false = .ok (.str a) := by
  obtain ⟨h1, _⟩ := (C72_domain env d).1 h
  obtain ⟨a, ha⟩ := Option.isSome_iff_exists.1 h1
  exact ⟨a, ha, strict_accepted env he hst hd ha (hn a ha)⟩

/-! ### The example meets the hypotheses -/

theorem exEnvStd3_ascii {d a : Str} (h : strictToASCII (exEnvStd3.nameToAscii true) d = some a) :
    a = d.map mapped ∧ d.map mapped ≠ [] ∧ (d.map mapped).all ldh = true ∧ (d.map mapped).all (· < 128) = true := by
  unfold strictToASCII exEnvStd3 at h
  by_cases h1 : (d.map mapped).all ldh = true
  · simp only [h1, Bool.not_true, Bool.and_false, Bool.false_eq_true, if_false] at h
    by_cases h2 : (d.map mapped).all (· < 128) = true
    · simp only [h2, if_true] at h
      generalize (if d.head? = some c!"-" then 8 else 0) = e at h
      by_cases h3 : Spec.onlyErrors Spec.hyphenBits e ∧ d.map mapped ≠ []
      · rw [if_pos h3] at h
        cases h
        exact ⟨rfl, h3.2, h1, h2⟩
      · rw [if_neg h3] at h; cases h
    · simp only [h2] at h; cases h
  · simp only [h1, Bool.not_false, Bool.and_self, if_true] at h
    rw [if_neg (by intro h; exact absurd (h.1 7 (by decide) (by decide)) (by decide))] at h
    cases h

theorem exEnvStd3_strict : StrictOK exEnvStd3 := by
  refine ⟨?_, ?_, by decide +kernel, ?_⟩
  · intro d a h
    obtain ⟨rfl, h1, h2, h3⟩ := exEnvStd3_ascii h
    unfold Spec.domainToASCII exEnvStd3
    simp only [Bool.false_and, Bool.false_eq_true, if_false, h3, if_true]
    rw [if_pos]
    refine ⟨?_, h1⟩
    split <;> decide
  · intro d a h c hc
    obtain ⟨rfl, h1, h2, h3⟩ := exEnvStd3_ascii h
    have := List.all_eq_true.1 h2 c hc
    simpa [ldh, LDH, or_assoc] using this
  · intro d a h
    obtain ⟨rfl, h1, h2, h3⟩ := exEnvStd3_ascii h
    have hx : ∀ c ∈ d, ldh (mapped c) = true := fun c hc => List.all_eq_true.1 h2 _ (List.mem_map_of_mem hc)
    intro c hc hlt
    have key : ∀ c < 128, ldh (mapped c) = true → ldh c = true := by decide
    have := key c hlt (hx c hc)
    simpa [ldh, LDH, or_assoc] using this

theorem exEnvStd3_same (d : Str) : SameVerdict (exEnvStd3.nameToAscii true) (exEnvStd3.nameToUnicode true) d := by
  intro a h
  obtain ⟨rfl, -, h2, -⟩ := exEnvStd3_ascii h
  have hm : (d.map mapped).map mapped = d.map mapped := by
    rw [List.map_map]
    apply List.map_congr_left
    intro c _
    simp only [Function.comp, mapped, lowerC, Bool.and_eq_true, decide_eq_true_eq]
    repeat' split
    all_goals first | rfl | omega
  have : ∀ x : Str, (x.map mapped).all ldh = true → cleanToUnicode (exEnvStd3.nameToUnicode true) x := by
    intro x hx
    refine ⟨x.map mapped, 0, ?_, by decide⟩
    unfold exEnvStd3
    simp only [hx, Bool.not_true, Bool.and_false, Bool.false_eq_true, if_false]
  exact ⟨fun _ => this _ (by rw [hm]; exact h2), fun _ => this _ h2⟩

-- a domain with capitals, a mapped letter and a leading hyphen is valid, and accepted
example : (isValidDomain exEnvStd3 u!"-A①.Example").res = .ok true ∧
    strictToASCII (exEnvStd3.nameToAscii true) u!"-A①.Example" = some u!"-a1.example" ∧
    hostParse exEnvStd3 u!"-A①.Example" false = .ok (.str u!"-a1.example") := by
  have h1 : (isValidDomain exEnvStd3 u!"-A①.Example").res = .ok true := by decide +kernel
  have h2 : strictToASCII (exEnvStd3.nameToAscii true) u!"-A①.Example" = some u!"-a1.example" := by decide +kernel
  refine ⟨h1, h2, ?_⟩
  obtain ⟨a, ha, h⟩ := C72_accepted_partial exEnvStd3 (.inr (by decide)) exEnvStd3_strict _
    (by unfold IsScalarStr Spec.Surrogate; decide) h1 (by
      intro a ha
      rw [h2] at ha
      cases ha
      refine ⟨by decide +kernel, fun p hp => ?_⟩
      rw [show (Spec.ipv4Parts u!"-a1.example").getLast? = some u!"example" by decide] at hp
      cases hp
      exact strictPart_of_int exEnvStd3 (by decide) (.inr (by decide)) (by decide))
  rw [h2] at ha
  cases ha
  exact h
-- not valid: a space, an underscore, the empty text
example : (isValidDomain exEnvStd3 u!"a b").res = .ok false ∧ (isValidDomain exEnvStd3 u!"a_b").res = .ok false ∧
    (isValidDomain exEnvStd3 []).res = .ok false := by decide +kernel
-- the hypotheses about hosts are met by a domain, and by an IPv6 address
example : ValidHostString (exEnvStd3.nameToAscii true) (exEnvStd3.nameToUnicode true) u!"h.example" :=
  C72_host_sound_partial exEnvStd3 (.inr (by decide)) _ (fun h => absurd h (by decide +kernel))
    (fun a h => by cases h) (exEnvStd3_same _) (by decide +kernel)
example : (hostIsValid exEnvStd3 u!"h.example").res = .ok true :=
  C72_host_complete_partial exEnvStd3 (.inr (by decide)) _ (fun _ => ⟨by decide +kernel, by decide⟩)
    (fun a h => by cases h) (exEnvStd3_same _)
    (.inl ⟨u!"h.example", by decide +kernel, u!"h.example", 0, by decide +kernel, by decide⟩)
example : (hostIsValid exEnvStd3 u!"[1::2]").res = .ok true ∧ (hostIsValid exEnvStd3 u!"192.0.2.1").res = .ok true ∧
    (hostIsValid exEnvStd3 u!"192.0.2").res = .ok false ∧ (hostIsValid exEnvStd3 u!"[1::2").res = .ok false := by
  decide +kernel

end Urlstd.Props
