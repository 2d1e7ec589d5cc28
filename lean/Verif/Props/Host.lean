/-
Properties C17-C19: hosts.
-/
import Verif.Lemmas.Host

namespace Urlstd.Props

open Spec (IsStr IsV6 ForbiddenHostCP ForbiddenDomainCP)

/-! ### C17 -/

/-- C17. A non-empty string that host parsing returns for a special URL contains no forbidden domain
code point and does not end in a number. Nothing is assumed of the IDNA library. -/
theorem C17_domain_no_forbidden (env : Env) (host s : Str) (log : Log)
    (h : hostParse env host false = ⟨.ok (.str s), log⟩) :
    (∀ c ∈ s, ¬ ForbiddenDomainCP c) ∧ (s ≠ [] → Spec.endsInANumber s = false) := by
  rcases hostParse_cases h with ⟨_, h⟩ | ⟨t, a, _, _, _, _, h⟩ | ⟨_, _, _, h, _⟩ |
    ⟨ascii, l, _, _, _, _, hf, ⟨_, n, _, _, h⟩ | ⟨hn, h⟩⟩
  · simp only [Host.str.injEq] at h; subst h; simp
  · cases h
  · cases h
  · cases h
  · simp only [Host.str.injEq] at h
    subst h
    refine ⟨fun c hc hfc => ?_, fun _ => ?_⟩
    · rw [← isForbiddenDomain_iff] at hfc; rw [hf c hc] at hfc; cases hfc
    · cases hs : Spec.endsInANumber s with
      | false => rfl
      | true => rw [ends_of_spec env hs] at hn; cases hn

/-- C17. The empty string is returned for the empty string only. -/
theorem C17_empty_only_for_empty (env : Env) (host : Str) (m : Bool) (log : Log) (hs : IsStr host)
    (h : hostParse env host m = ⟨.ok (.str []), log⟩) : host = [] := by
  rcases hostParse_cases h with ⟨h, _⟩ | ⟨t, a, _, _, _, _, h⟩ | ⟨s, hne, _, _, ho, h⟩ |
    ⟨ascii, l, _, _, _, hd, hf, ⟨_, n, _, _, h⟩ | ⟨hn, h⟩⟩
  · exact h
  · cases h
  · simp only [Host.str.injEq] at h
    subst h
    exact absurd rfl (parseOpaqueHost_ok hs hne ho).2.2.1
  · cases h
  · simp only [Host.str.injEq] at h
    exact absurd h.symm (domainToAscii_ne_nil hd)

/-- C17. Input that starts with "[" gives an IPv6 address or an error, in both modes. -/
theorem C17_bracketed (env : Env) (rest : Str) (m : Bool) (h : Host) (log : Log)
    (hp : hostParse env (c!"[" :: rest) m = ⟨.ok h, log⟩) : ∃ a, h = .ipv6 a ∧ IsV6 a := by
  rcases hostParse_cases hp with ⟨h, _⟩ | ⟨t, a, _, _, _, h6, h⟩ | ⟨s, _, hb, _⟩ | ⟨_, _, _, hb, _⟩
  · cases h
  · exact ⟨a, h, ipv6Parse_length h6⟩
  · exact absurd rfl hb
  · exact absurd rfl hb

example : ∃ log, hostParse exEnv u!"EX%41mple.com" false = ⟨.ok (.str u!"example.com"), log⟩ :=
  ⟨_, rfl⟩
example : (hostParse exEnv u!"ex%2Fample" false).val = none := by decide +kernel
example : (hostParse exEnv u!"[::1]" false).val = some (.ipv6 [0, 0, 0, 0, 0, 0, 0, 1]) := by
  decide +kernel

/-! ### C18 -/

/-- C18 is false: "256.256" parses to the number 2^32 + 256, which is serialized as "0.0.1.0". -/
theorem C18_false_ipv4_overflow :
    (hostParse exEnv u!"256.256" false).val = some (.ipv4 (2 ^ 32 + 256)) ∧
    hostSerialize (.ipv4 (2 ^ 32 + 256)) = u!"0.0.1.0" ∧
    (hostParse exEnv u!"0.0.1.0" false).val = some (.ipv4 256) := by decide +kernel

/-- C18 (partial: an IPv4 number must be below 2^32, see `C18_false_ipv4_overflow`). Parsing the
serialization of a host that host parsing returned gives that host again, in the same mode. -/
theorem C18_host_round_trip_partial (env : Env) (he : EnvOK env) (hi : IdnaOK env) (host : Str)
    (hs : IsStr host) (m : Bool) (h : Host) (log : Log) (hp : hostParse env host m = ⟨.ok h, log⟩)
    (h4 : ∀ n, h = .ipv4 n → n < 2 ^ 32) :
    (hostParse env (hostSerialize h) m).res = .ok h := by
  rw [hostParse_serialize he hi (hostParse_wf hi hs hp)]
  cases h with
  | str s => rfl
  | ipv4 n => simp only [Host.canon, Nat.mod_eq_of_lt (h4 n rfl)]
  | ipv6 a => rfl

/-- C18, without a condition on IPv4 numbers: the serialization is a fixed point. -/
theorem C18_host_serialization_fixed (env : Env) (he : EnvOK env) (hi : IdnaOK env) (host : Str)
    (hs : IsStr host) (m : Bool) (h : Host) (log : Log) (hp : hostParse env host m = ⟨.ok h, log⟩) :
    ∃ h', (hostParse env (hostSerialize h) m).res = .ok h' ∧ hostSerialize h' = hostSerialize h := by
  exact ⟨_, hostParse_serialize he hi (hostParse_wf hi hs hp), hostSerialize_canon h⟩

example : EnvOK exEnv := .inr (by decide)
example : IdnaOK exEnv := exEnv_idna
example : (hostParse exEnv u!"0x7F.1" false).val = some (.ipv4 0x7F000001) ∧
    hostSerialize (.ipv4 0x7F000001) = u!"127.0.0.1" := by decide +kernel

/-! ### C19 -/

/-- C19. A non-empty opaque host consists of printable ASCII characters other than the space, none of
which is a forbidden host code point. -/
theorem C19_opaque_host_chars (env : Env) (host s : Str) (hs : IsStr host) (log : Log)
    (h : hostParse env host true = ⟨.ok (.str s), log⟩) :
    ∀ c ∈ s, 0x20 < c ∧ c < 0x7F ∧ ¬ ForbiddenHostCP c := by
  rcases hostParse_cases h with ⟨_, h⟩ | ⟨t, a, _, _, _, _, h⟩ | ⟨s, hne, _, _, ho, h⟩ | ⟨_, _, _, _, h, _⟩
  · simp only [Host.str.injEq] at h; subst h; simp
  · cases h
  · simp only [Host.str.injEq] at h
    subst h
    intro c hc
    obtain ⟨h1, h2, h3⟩ := (parseOpaqueHost_ok hs hne ho).2.2.2 c hc
    refine ⟨h1, h2, fun hf => ?_⟩
    rw [← isForbiddenHost_iff, h3] at hf; cases hf
  · cases h

/-- C19. Input with a forbidden host code point that is not bracketed is rejected with a
HostParseError in non-special mode. -/
theorem C19_opaque_host_rejects (env : Env) (host : Str) (hb : host.head? ≠ some c!"[")
    (h : ∃ c ∈ host, ForbiddenHostCP c) : (hostParse env host true).res = .error .hostParse := by
  obtain ⟨c, hc, hf⟩ := h
  rw [← isForbiddenHost_iff] at hf
  have hany : host.any isForbiddenHost = true := List.any_eq_true.2 ⟨c, hc, hf⟩
  unfold hostParse
  cases host with
  | nil => cases hc
  | cons x xs =>
    have hx : x ≠ 91 := by simpa using hb
    dsimp only
    rw [if_neg hx, if_pos rfl]
    unfold parseOpaqueHost
    rw [if_pos hany]
    rfl

/-- C19. Nothing is lost: the host that is returned percent-decodes to the same bytes as the input. -/
theorem C19_opaque_host_decodes (env : Env) (host s : Str) (hs : IsStr host) (log : Log)
    (h : hostParse env host true = ⟨.ok (.str s), log⟩) :
    Spec.percentDecode s = Spec.percentDecode (utf8Encode host) := by
  rcases hostParse_cases h with ⟨h', h⟩ | ⟨t, a, _, _, _, _, h⟩ | ⟨s, hne, _, _, ho, h⟩ | ⟨_, _, _, _, h, _⟩
  · simp only [Host.str.injEq] at h; subst h; subst h'; rfl
  · cases h
  · simp only [Host.str.injEq] at h
    subst h
    rw [(parseOpaqueHost_ok hs hne ho).2.1, utf8PercentEncode_false]
    exact specPD_quoted (by decide) (utf8Encode_bytes host hs)
  · cases h

example : ∃ log, hostParse exEnv u!"Ex%41mple é" true = ⟨.error .hostParse, log⟩ := ⟨_, rfl⟩
example : (hostParse exEnv u!"Ex%41mpleé" true).val = some (.str u!"Ex%41mple%C3%A9") := by
  decide +kernel

end Urlstd.Props
