/-
Exact versions of C18, C30, C52 and C55: the exceptions of the partial theorems are the only ones.
-/
import Verif.Props.Host
import Verif.Props.RoundTrip
import Verif.Props.Origin
import Verif.Props.Params

namespace Urlstd.Props

open Spec (IsStr IsScalarStr decoded)

/-- C18, exactly: a parsed host is given back if and only if it is no IPv4 number of more than 32 bits. -/
theorem C18_exact (env : Env) (he : EnvOK env) (hi : IdnaOK env) (host : Str) (hs : IsStr host) (m : Bool) (h : Host) (log : Log)
    (hp : hostParse env host m = ⟨.ok h, log⟩) :
    (hostParse env (hostSerialize h) m).res = .ok h ↔ ∀ n, h = .ipv4 n → n < 2 ^ 32 := by
  refine ⟨?_, C18_host_round_trip_partial env he hi host hs m h log hp⟩
  rw [hostParse_serialize he hi (hostParse_wf hi hs hp)]
  rintro hc n rfl
  simp only [Host.canon, Except.ok.injEq, Host.ipv4.injEq] at hc
  have := Nat.mod_lt n (show 0 < 2 ^ 32 by decide)
  omega

example : (hostParse exEnv (hostSerialize (.ipv4 (2 ^ 32 + 256))) false).res ≠ .ok (.ipv4 (2 ^ 32 + 256)) := by
  intro h
  have := (C18_exact exEnv (.inr (by decide)) exEnv_idna u!"256.256" (by decide) false _
    (hostParse exEnv u!"256.256" false).log (by
      rw [Res.mk.injEq]; exact ⟨by decide +kernel, rfl⟩)).1 h _ rfl
  exact absurd this (by decide)

/-- C30, exactly. -/
theorem C30_exact (env : Env) (he : EnvOK env) (hi : IdnaOK env) (u : Rec) (h : Parsed env u) :
    (parseUrl env u.serialize).res = .ok u ↔ ∀ n, u.host = some (.ipv4 n) → n < 2 ^ 32 := by
  refine ⟨?_, C30_record_partial env he hi u h⟩
  intro hc n hn
  have hv : (parseUrl env u.serialize).res = .ok u.canon := basicParse_serialize he hi (h.wf (hostSpec_wf hi))
  rw [hc, Except.ok.injEq] at hv
  have h8 : u.host = u.host.map Host.canon := congrArg Rec.host hv
  rw [hn] at h8
  simp only [Option.map_some, Host.canon, Option.some.injEq, Host.ipv4.injEq] at h8
  have := Nat.mod_lt n (show 0 < 2 ^ 32 by decide)
  omega

example : ∃ u, Parsed exEnv u ∧ (parseUrl exEnv u.serialize).res ≠ .ok u := by
  obtain ⟨u, v, hu, -, h, -⟩ := C30_false_ipv4_overflow
  exact ⟨u, hu, fun hc => absurd ((C30_exact exEnv (.inr (by decide)) exEnv_idna u hu).1 hc _ h) (by decide)⟩

/-- C52, exactly: a pair that was appended is found if its value has no escapes to decode, or was there before. -/
theorem C52_append_exact (l : Params) (n v : Str) (hn : IsStr n) (hv : IsStr v) :
    spHas (spAppend l n (.str v)) n (some (.str v)) = true ↔ decoded v = v ∨ (decoded n, v) ∈ l := by
  rw [(C52_has_iff _ n v hn).2, (C51_append l n (.str v) hn hv).1]
  simp only [ParamVal.toStr, List.mem_append, List.mem_singleton, Prod.mk.injEq, true_and]
  rw [or_comm, eq_comm]

example : spHas (spAppend [] u!"a" (.str u!"100%")) u!"a" (some (.str u!"100%")) = true ∧
    spHas (spAppend [] u!"a" (.str u!"%41")) u!"a" (some (.str u!"%41")) = false :=
  ⟨(C52_append_exact _ _ _ (by decide) (by decide)).2 (.inl (by decide +kernel)), by
    rw [Bool.eq_false_iff]
    intro h
    rcases (C52_append_exact _ _ _ (by decide) (by decide)).1 h with h | h
    · exact absurd h (by decide +kernel)
    · cases h⟩

/-- C55, exactly: an origin is same origin-domain with itself if and only if its domain is not the empty string. -/
theorem C55_refl_exact (a : Origin) : a.isSameOriginDomain a = true ↔ a.domain ≠ some [] := by
  refine ⟨?_, C55_same_origin_domain_refl_partial a⟩
  intro h hd
  rw [C55_same_origin_domain] at h
  rcases h with ⟨-, d, h1, h2, -⟩ | ⟨-, -, -, h2, -⟩
  · rw [hd] at h2; cases h2; exact h1 rfl
  · rw [hd] at h2; cases h2

example : (⟨u!"http", some (.str u!"h"), none, some u!"h"⟩ : Origin).isSameOriginDomain ⟨u!"http", some (.str u!"h"), none, some u!"h"⟩ = true :=
  (C55_refl_exact _).2 (by decide)

end Urlstd.Props
