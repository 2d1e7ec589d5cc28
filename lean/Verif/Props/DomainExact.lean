/-
Property C72, exactly: the texts on which the validators for hosts disagree with the standard.
-/
import Verif.Spec.DomainExact
import Verif.Props.Domain
import Verif.Props.Opaque
import Verif.Props.Deviant

namespace Urlstd.Props

open Spec (IsScalarStr ValidDomain ValidHostString SameVerdict StrictOK strictToASCII dotted DelOK OddIPv6 OddHostString PyQuad EndsInNumber
  OpaqueHostString)

/-- the validator for IPv6 addresses disagrees with the standard on the texts on which the parsers do -/
theorem valid6_odd (env : Env) (he : EnvOK env) (a : Str) :
    ¬ ((isValidIPv6Address env a).res = .ok true ↔ (Spec.ipv6Parse a).isSome = true) ↔ OddIPv6 env.quiet a := by
  have h1 : (isValidIPv6Address env a).res = .ok true ↔ (ipv6Parse env.quiet a).val ≠ none := by
    rw [isValidIPv6_iff]
    constructor
    · rintro ⟨p, hp⟩
      rw [hp]
      simp [Res.val, Res.ok]
    · intro h
      rcases hr : ipv6Parse env.quiet a with ⟨r, log⟩
      rw [hr] at h
      cases r with
      | error e => exact absurd rfl h
      | ok p => exact ⟨p, by rw [ipv6Parse_ok_log hr]; rfl⟩
  rw [h1, Option.isSome_iff_ne_none, ← ipv6_odd (env := env.quiet) he]
  obtain ⟨k1, k2, k3⟩ := C15_exact env.quiet he a
  constructor
  · intro h e
    rw [e] at h
    exact h Iff.rfl
  · intro h hc
    rcases k1.1 h with ⟨g1, g2⟩ | g
    · exact hc.1 g2 (k2 g1)
    · obtain ⟨g1, g2⟩ := k3 g
      exact hc.2 g2 g1

/-- C72, exactly: the validator for opaque hosts disagrees with the standard on the IPv6 addresses of C15 and on nothing else. -/
theorem C72_opaque_exact (env : Env) (he : EnvOK env) (h : Str) :
    ¬ ((isValidOpaqueHost env h).res = .ok true ↔ OpaqueHostString h) ↔ ∃ a, h = u!"[" ++ a ++ u!"]" ∧ OddIPv6 env.quiet a := by
  by_cases hb : ∃ a, h = u!"[" ++ a ++ u!"]"
  · obtain ⟨a, rfl⟩ := hb
    have e1 : (isValidOpaqueHost env (u!"[" ++ a ++ u!"]")).res = .ok true ↔ (isValidIPv6Address env a).res = .ok true := by
      unfold isValidOpaqueHost
      rw [if_neg (by simp), bracketed_some.2 rfl]
    have e2 : OpaqueHostString (u!"[" ++ a ++ u!"]") ↔ (Spec.ipv6Parse a).isSome = true := by
      constructor
      · rintro (⟨_, hu⟩ | ⟨a', ha', _, hs⟩)
        · rcases units_char hu c!"[" (by simp) with h | h | h
          · exact absurd h (by decide)
          · exact absurd h (by decide)
          · exact absurd (by decide) h.2
        · rw [List.append_cancel_left (List.append_cancel_right ha')]
          exact hs
      · exact fun hs => .inr ⟨a, rfl, specIpv6_chars hs, hs⟩
    rw [e1, e2, valid6_odd env he]
    constructor
    · exact fun h => ⟨a, rfl, h⟩
    · rintro ⟨a', ha', h⟩
      rw [List.append_cancel_left (List.append_cancel_right ha')]
      exact h
  · constructor
    · intro hne
      exact absurd (C72_opaque_grammar_partial env he h (fun a ha => absurd ⟨a, ha⟩ hb)) hne
    · rintro ⟨a, ha, _⟩
      exact absurd ⟨a, ha⟩ hb

/-- C72, exactly: the validator for hosts disagrees with the standard on the texts of `OddHostString` and on no others, with
an IDNA library that does what UseSTD3ASCIIRules says and does not distinguish the text from its ASCII form. -/
theorem C72_host_exact (env : Env) (he : EnvOK env) (hdel : DelOK env) (hst : StrictOK env) (host : Str)
    (hd : SameVerdict (env.nameToAscii true) (env.nameToUnicode true) host) :
    ¬ ((hostIsValid env host).res = .ok true ↔ ValidHostString (env.nameToAscii true) (env.nameToUnicode true) host) ↔
      OddHostString env host := by
  have nodot : ∀ n, n < 2 ^ 32 → ∀ a, dotted n ≠ u!"[" ++ a ++ u!"]" := by
    intro n hlt a hb
    rw [← C10_ipv4_serialize_dotted n hlt] at hb
    exact dotted_no_bracket n c!"[" (by rw [hb]; simp) rfl
  by_cases hb : ∃ a, host = u!"[" ++ a ++ u!"]"
  · obtain ⟨a, rfl⟩ := hb
    have hcancel : ∀ {a'}, u!"[" ++ a ++ u!"]" = u!"[" ++ a' ++ u!"]" → a = a' := fun h =>
      List.append_cancel_left (List.append_cancel_right h)
    have e1 : (hostIsValid env (u!"[" ++ a ++ u!"]")).res = .ok true ↔ (isValidIPv6Address env a).res = .ok true := by
      unfold hostIsValid
      rw [bracketed_some.2 rfl]
    have e2 : ValidHostString (env.nameToAscii true) (env.nameToUnicode true) (u!"[" ++ a ++ u!"]") ↔ (Spec.ipv6Parse a).isSome = true := by
      constructor
      · rintro (⟨x, hx, _⟩ | ⟨n, hn, h⟩ | ⟨a', ha', hs⟩)
        · have := hst.source _ _ hx c!"[" (by simp) (by decide)
          exact absurd this (by unfold Spec.LDH; decide)
        · exact absurd h.symm (nodot n hn a)
        · rw [hcancel ha']; exact hs
      · exact fun hs => .inr (.inr ⟨a, rfl, hs⟩)
    rw [e1, e2, valid6_odd env he]
    constructor
    · exact fun h => .inl ⟨a, rfl, h⟩
    · rintro (⟨a', ha', h⟩ | ⟨h, _⟩)
      · rw [hcancel ha']; exact h
      · exact absurd rfl (h a)
  · have hb' : ∀ a, host ≠ u!"[" ++ a ++ u!"]" := fun a ha => hb ⟨a, ha⟩
    have hn : bracketed host = none := by
      cases h : bracketed host with
      | none => rfl
      | some a => exact absurd (bracketed_some.1 h) (hb' a)
    have e2 : ValidHostString (env.nameToAscii true) (env.nameToUnicode true) host ↔
        ValidDomain (env.nameToAscii true) (env.nameToUnicode true) host ∨ ∃ n, n < 2 ^ 32 ∧ host = dotted n := by
      constructor
      · rintro (h | h | ⟨a, ha, _⟩)
        · exact .inl h
        · exact .inr h
        · exact absurd ha (hb' a)
      · rintro (h | h)
        · exact .inl h
        · exact .inr (.inl h)
    rw [e2]
    unfold hostIsValid OddHostString
    rw [hn]
    dsimp only
    by_cases hend : isEndsInANumber env host = true
    · rw [if_pos hend]
      have hE := (endsInNumber_iff hdel host).1 hend
      have hq : (isValidIPv4Address env host).res = .ok true ↔ PyQuad env host := C62_exact env hdel host
      by_cases hdot : ∃ n, n < 2 ^ 32 ∧ host = dotted n
      · constructor
        · intro h
          exfalso
          apply h
          refine ⟨fun _ => .inr hdot, fun _ => ?_⟩
          obtain ⟨n, hlt, rfl⟩ := hdot
          exact C62_dotted_valid env he n hlt
        · rintro (⟨a, ha, _⟩ | ⟨_, _, h, _⟩)
          · exact absurd ha (hb' a)
          · obtain ⟨n, hlt, rfl⟩ := hdot
            exact absurd rfl (h n hlt)
      · rw [hq]
        constructor
        · intro h
          refine .inr ⟨hb', hE, fun n hlt e => hdot ⟨n, hlt, e⟩, fun hc => h ?_⟩
          rw [hc]
          exact ⟨.inl, fun h => h.resolve_right hdot⟩
        · rintro (⟨a, ha, _⟩ | ⟨_, _, _, h⟩) hc
          · exact absurd ha (hb' a)
          · refine h (hc.trans ⟨fun h => h.resolve_right hdot, .inl⟩)
    · rw [if_neg hend]
      have hv := C72_domain_standard_partial env host hd
      have hdot : ¬ ∃ n, n < 2 ^ 32 ∧ host = dotted n := by
        rintro ⟨n, hlt, rfl⟩
        apply hend
        rw [← C10_ipv4_serialize_dotted n hlt, isEndsInANumber_serialize]
      constructor
      · intro h
        exfalso
        apply h
        rw [hv]
        exact ⟨.inl, fun h => h.resolve_right hdot⟩
      · rintro (⟨a, ha, _⟩ | ⟨_, h, _⟩)
        · exact absurd ha (hb' a)
        · exact absurd ((endsInNumber_iff hdel host).2 h) hend

/-- C72, exactly: a domain with a positive verdict is accepted by host parsing as its ASCII form, without a validation error, if
and only if its ASCII form does not end in a number (as `int()` reads numbers); otherwise it does not become a domain at all. -/
theorem C72_accepted_exact (env : Env) (hdel : DelOK env) (hst : StrictOK env) (d : Str) (hd : IsScalarStr d)
    (h : (isValidDomain env d).res = .ok true) :
    ∃ a, strictToASCII (env.nameToAscii true) d = some a ∧
      (¬ EndsInNumber env a → hostParse env d false = .ok (.str a)) ∧
      (EndsInNumber env a → ∀ x, (hostParse env d false).res ≠ .ok (.str x)) := by
  obtain ⟨h1, _⟩ := (C72_domain env d).1 h
  obtain ⟨a, ha⟩ := Option.isSome_iff_exists.1 h1
  have hends := endsInNumber_iff hdel a
  refine ⟨a, ha, fun hn => ?_, fun hn x hx => ?_⟩
  · refine strict_accepted_of env hst hd ha ?_
    cases he : isEndsInANumber env a with
    | false => rfl
    | true => exact absurd (hends.1 he) hn
  · have hs := hst.same d a ha
    rw [← domainToAscii_std] at hs
    have hp : c!"%" ∉ d := fun h => absurd (hst.source d a ha _ h (by decide)) (by unfold Spec.LDH; decide)
    have hdec := decode_noPercent hd hp
    rcases hostParse_cases (log := (hostParse env d false).log) (by rw [← hx]) with
      ⟨h, _⟩ | ⟨_, _, _, _, _, _, h⟩ | ⟨_, _, _, h, _⟩ | ⟨a', l, _, _, _, h, _, h'⟩
    · subst h; rw [hst.empty] at ha; cases ha
    · cases h
    · cases h
    · rw [hdec] at h
      rw [h] at hs
      cases hs
      rcases h' with ⟨_, _, _, _, h'⟩ | ⟨h', _⟩
      · cases h'
      · rw [hends.2 hn] at h'; cases h'

/-! ### Examples -/

-- a valid domain that ends in a number, a quad for Python only, both at once, and an odd IPv6 address
example : OddHostString exEnvStd3 u!"1.2.3" ∧ OddHostString exEnvStd3 u!"1_0.0.0.1" ∧ OddHostString exEnvStd3 u!"[:::1]" ∧
    ¬ OddHostString exEnvStd3 u!"-0.0.0.1" ∧ ¬ OddHostString exEnvStd3 u!"My-host.1a" := by
  have key := fun h => C72_host_exact exEnvStd3 (.inr (by decide)) exEnv_del exEnvStd3_strict h (exEnvStd3_same h)
  have yes : ∀ h, ValidHostString (exEnvStd3.nameToAscii true) (exEnvStd3.nameToUnicode true) h →
      (hostIsValid exEnvStd3 h).res = .ok false → OddHostString exEnvStd3 h := by
    intro h hv hr
    refine (key h).1 fun hc => ?_
    rw [hc.2 hv] at hr
    cases hr
  have no : ∀ h, ValidHostString (exEnvStd3.nameToAscii true) (exEnvStd3.nameToUnicode true) h →
      (hostIsValid exEnvStd3 h).res = .ok true → ¬ OddHostString exEnvStd3 h := fun h hv hr ho =>
    (key h).2 ho ⟨fun _ => hv, fun _ => hr⟩
  refine ⟨yes _ C72_false_host.1.2 C72_false_host.1.1, ?_, ?_, ?_, ?_⟩
  · exact (key _).1 fun hc => C72_false_host.2.2 (hc.1 C72_false_host.2.1)
  · refine (key _).1 fun hc => ?_
    rcases hc.1 (by decide +kernel) with ⟨a, ha, _⟩ | ⟨n, hn, h⟩ | ⟨a, ha, hs⟩
    · rw [show strictToASCII (exEnvStd3.nameToAscii true) u!"[:::1]" = none by decide +kernel] at ha
      cases ha
    · rw [← C10_ipv4_serialize_dotted n hn] at h
      exact dotted_no_bracket n c!"[" (by rw [← h]; decide) rfl
    · rw [show (u!"[:::1]" : Str) = u!"[" ++ u!":::1" ++ u!"]" from rfl] at ha
      rw [← List.append_cancel_left (List.append_cancel_right ha)] at hs
      revert hs
      decide +kernel
  · exact no _ (.inl ⟨u!"-0.0.0.1", by decide +kernel, u!"-0.0.0.1", 0, by decide +kernel, by decide⟩) (by decide +kernel)
  · exact no _ (.inl ⟨u!"my-host.1a", by decide +kernel, u!"my-host.1a", 0, by decide +kernel, by decide⟩) (by decide +kernel)

example : (isValidOpaqueHost exEnv u!"[:::1]").res = .ok true ∧ ¬ OpaqueHostString u!"[:::1]" := by
  have h1 : (isValidOpaqueHost exEnv u!"[:::1]").res = .ok true := by decide +kernel
  refine ⟨h1, fun h2 => ?_⟩
  refine (C72_opaque_exact exEnv (.inr (by decide)) u!"[:::1]").2 ⟨u!":::1", rfl, .inl ⟨.inl ⟨u!"1", rfl⟩, ?_⟩⟩
    ⟨fun _ => h2, fun _ => h1⟩
  exact ⟨[0, 0, 0, 0, 0, 0, 0, 1], by decide +kernel⟩

-- "a.①" is valid, and no domain when parsed, for its ASCII form ends in a number; "B①" is a domain
example : (∀ x, (hostParse exEnvStd3 u!"a.①" false).res ≠ .ok (.str x)) ∧ hostParse exEnvStd3 u!"B①" false = .ok (.str u!"b1") := by
  constructor
  · obtain ⟨a, ha, _, h⟩ := C72_accepted_exact exEnvStd3 exEnv_del exEnvStd3_strict u!"a.①"
      (by unfold IsScalarStr Spec.Surrogate; decide) (by decide +kernel)
    rw [show strictToASCII (exEnvStd3.nameToAscii true) u!"a.①" = some u!"a.1" by decide +kernel] at ha
    cases ha
    exact h ((endsInNumber_iff (env := exEnvStd3) exEnv_del _).1 (by decide +kernel))
  · obtain ⟨a, ha, h, _⟩ := C72_accepted_exact exEnvStd3 exEnv_del exEnvStd3_strict u!"B①"
      (by unfold IsScalarStr Spec.Surrogate; decide) (by decide +kernel)
    rw [show strictToASCII (exEnvStd3.nameToAscii true) u!"B①" = some u!"b1" by decide +kernel] at ha
    cases ha
    refine h fun he => ?_
    have : isEndsInANumber exEnvStd3 u!"b1" = true := (endsInNumber_iff (env := exEnvStd3) exEnv_del _).2 he
    revert this
    decide +kernel

end Urlstd.Props
