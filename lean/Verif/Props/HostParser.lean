/-
Property C66: host parsing and the standard's host parser; the URL parser with the standard's host parser.
-/
import Verif.Lemmas.HostParser
import Verif.Lemmas.PyNumeral
import Verif.Props.Machine

namespace Urlstd.Props

open Spec (IsScalarStr Parses ParseAsks RegularHost Regular4 Regular6 StrictPart hostParser)

/-! ### C66 -/

/-- C66 is false: host parsing differs from the standard's host parser where C12 and C15 do. -/
theorem C66_false_host :
    ((hostParse exEnv u!"1_0.1" false).val = some (.ipv4 0x0A000001) ∧
      hostParser (exEnv.nameToAscii false) u!"1_0.1" false = none) ∧
    ((hostParse exEnv u!"a.-0" false).val = none ∧
      hostParser (exEnv.nameToAscii false) u!"a.-0" false = some (.str u!"a.-0")) ∧
    ((hostParse exEnv u!"[:::1]" true).val = some (.ipv6 [0, 0, 0, 0, 0, 0, 0, 1]) ∧
      hostParser (exEnv.nameToAscii false) u!"[:::1]" true = none) := by
  decide +kernel

/-- C66 (partial). Host parsing of a text without surrogates returns what the standard's host parser returns, for a
domain and for the host of a URL that is not special, and fails when it fails.

Missing: the texts for which C12 and C15 fail (`RegularHost`). The standard does not call its host parser on the empty
string for a special URL. -/
theorem C66_host_parser_partial (env : Env) (he : EnvOK env) (s : Str) (hs : IsScalarStr s) (isOpaque : Bool)
    (hne : s ≠ [] ∨ isOpaque = true)
    (h : RegularHost (Spec.domainToASCII (env.nameToAscii false)) s isOpaque) :
    (hostParse env s isOpaque).val = hostParser (env.nameToAscii false) s isOpaque :=
  hostParse_std he hs hne h

/-- C66 (partial, as C65 is). The URL parser is the standard's basic URL parser together with the standard's host
parser, on every input for which no deviating text is handed to the host parser. -/
theorem C66_parser_partial (env : Env) (henv : EnvOK env) (base : Option Rec) (hb : ∀ b, base = some b → Parsed env b)
    (s : Str) (hs : IsScalarStr s) (e : Encoding) (he : EncOK e) (hn : NoRef e) (hl : ¬ LongInput env s.length)
    (hf : ∀ b, base = some b → b.scheme = u!"file" → ¬ BareFile s)
    (hr : ∀ t m, ParseAsks (hostParser (env.nameToAscii false)) s base e t m →
      RegularHost (Spec.domainToASCII (env.nameToAscii false)) t m) :
    (∀ u, (parseUrl env s (baseArg base) e).res = .ok u ↔
      Parses (hostParser (env.nameToAscii false)) s base e (.ok u)) ∧
    ((∃ err, (parseUrl env s (baseArg base) e).res = .error err ∧ err.isURLParseError = true) ↔
      ∃ u, Parses (hostParser (env.nameToAscii false)) s base e (.failure u)) := by
  have key : ∀ o, Parses (hostOf env) s base e o ↔ Parses (hostParser (env.nameToAscii false)) s base e o := by
    intro o
    refine Halts_iff (K := ⟨base, Spec.encoder e, none, hostParser (env.nameToAscii false)⟩) (hp := hostOf env) ?_
    intro t m ha
    obtain ⟨h1, h2⟩ := asks_mem (K := ⟨base, Spec.encoder e, none, hostParser (env.nameToAscii false)⟩) ha
      ⟨fun h => by simp [Spec.Cfg.start, hostState] at h, fun _ => rfl⟩
    have hsc : IsScalarStr t := by
      intro c hc
      have := h1 c hc
      rw [prepared_std] at this
      exact hs c (prepared_mem c this)
    rw [hostOf_eq]
    exact (C66_host_parser_partial env henv t hsc m h2 (hr t m ha)).symm
  obtain ⟨h1, h2⟩ := C65_parser_partial env base hb s hs e he hn hl hf
  refine ⟨fun u => by rw [h1, key], ?_⟩
  rw [h2]
  constructor
  · rintro ⟨u, h⟩; exact ⟨u, (key _).1 h⟩
  · rintro ⟨u, h⟩; exact ⟨u, (key _).2 h⟩

theorem exEnv_regular : RegularHost (Spec.domainToASCII (exEnv.nameToAscii false)) u!"My-h%6Fst.example" false := by
  refine ⟨fun x h => (by cases h), fun _ _ a ha => ?_⟩
  have e : Spec.domainToASCII (exEnv.nameToAscii false)
      (Spec.utf8Decode (Spec.percentDecode (Spec.utf8 u!"My-h%6Fst.example"))) = some u!"my-host.example" := by
    decide +kernel
  rw [e] at ha
  cases ha
  refine ⟨fun p hp => ?_, fun h => ?_⟩
  · rw [show (Spec.ipv4Parts u!"my-host.example").getLast? = some u!"example" by decide] at hp
    cases hp
    exact strictPart_of_int exEnv (by decide) (.inr (by decide)) (by decide)
  · exact absurd h (by decide +kernel)

-- the hypotheses of both theorems are met by a domain with capitals, a hyphen and a percent-encoded letter
example : (hostParse exEnv u!"My-h%6Fst.example" false).val = some (.str u!"my-host.example") := by
  rw [C66_host_parser_partial exEnv (.inr (by decide)) _ (by unfold IsScalarStr Spec.Surrogate; decide) false
    (.inl (by decide)) exEnv_regular]
  decide +kernel
example : (parseUrl exEnv u!"http:\\\\My-h%6Fst.example:80/a b" (baseArg (some exRecord)) .utf8).res =
    .ok { scheme := u!"http", host := some (.str u!"my-host.example"), path := .list [u!"a%20b"] } :=
  ((C66_parser_partial exEnv (.inr (by decide)) (some exRecord) (by rintro _ ⟨⟩; exact exRecord_parsed) _
    (by unfold IsScalarStr Spec.Surrogate; decide) .utf8 trivial trivial (exEnv_short (by decide))
    (by rintro _ ⟨⟩ h; exact absurd h (by decide)) (by
      intro t m ha
      have hm := Spec.asks_asked (n := 100) (l := [(u!"My-h%6Fst.example", false)]) ha (by decide +kernel)
      simp only [List.mem_singleton, Prod.mk.injEq] at hm
      obtain ⟨rfl, rfl⟩ := hm
      exact exEnv_regular)).1 _).2 (Spec.exec_halts (n := 200) (by decide +kernel))
-- an IPv6 address, and an opaque host
example : RegularHost (Spec.domainToASCII (exEnv.nameToAscii false)) u!"[1::2]" true := by
  refine ⟨fun x h => ?_, fun h => by cases h⟩
  have hx : x = u!"1::2" := by
    have : u!"1::2" ++ u!"]" = x ++ u!"]" := by injection h
    exact (List.append_cancel_right this).symm
  subst hx
  refine ⟨fun t h => (by cases h), fun y z h => ?_, by rintro ⟨h, _⟩; exact absurd h (by decide)⟩
  have : c!"." ∈ u!"1::2" := by rw [h]; simp
  exact absurd this (by decide)
example : hostParser (exEnv.nameToAscii false) u!"[1::2]" true = some (.ipv6 [1, 0, 0, 0, 0, 0, 0, 2]) ∧
    hostParser (exEnv.nameToAscii false) u!"a é" true = none ∧
    hostParser (exEnv.nameToAscii false) u!"aé" true = some (.str u!"a%C3%A9") := by decide +kernel

end Urlstd.Props
