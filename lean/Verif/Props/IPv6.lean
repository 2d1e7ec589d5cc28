/-
Properties C13-C16: IPv6 addresses.
-/
import Verif.Lemmas.IPv6d
import Verif.Spec.Example

namespace Urlstd.Props

open Spec (IsV6 hexColons ZeroRun FirstLongestZeroRun)

/-! ### C13 -/

/-- C13. Parsing the serialization of an IPv6 address returns it, without a validation error. -/
theorem C13_ipv6_round_trip (env : Env) (a : List Nat) (h : IsV6 a) :
    ipv6Parse env (ipv6Serialize a) = .ok a := ipv6_round_trip env h

/-- C13. Different addresses have different serializations. -/
theorem C13_ipv6_serialize_injective (a b : List Nat) (ha : IsV6 a) (hb : IsV6 b)
    (h : ipv6Serialize a = ipv6Serialize b) : a = b := by
  have h1 := ipv6_round_trip exEnv ha
  rw [h, ipv6_round_trip exEnv hb] at h1
  simpa [Res.ok] using h1.symm

/-- C13. The standard's parser reads the serialization as the same address. -/
theorem C13_ipv6_standard_reads (a : List Nat) (h : IsV6 a) :
    Spec.ipv6Parse (ipv6Serialize a) = some a := ipv6Serialize_standard h

example : IsV6 [0x2001, 0xdb8, 0, 0, 0, 0xff00, 0x42, 0x8329] := ⟨rfl, by decide⟩
example : ipv6Serialize [0x2001, 0xdb8, 0, 0, 0, 0xff00, 0x42, 0x8329] = u!"2001:db8::ff00:42:8329" := by
  decide +kernel

/-! ### C14 -/

/-- C14 as stated is false: an IPv4 part with more digits than `sys.get_int_max_str_digits()`
raises ValueError, whatever that limit is. -/
theorem C14_false_value_error (env : Env) (h : 0 < env.maxStrDigits) :
    ipv6Parse env (u!"::" ++ (List.replicate (env.maxStrDigits + 1) c!"1" ++ u!".1.1.1")) =
      .err .valueError := ipv6Parse_long env h

example : 0 < exEnv.maxStrDigits := by decide

/-- C14. Every result of IPv6 parsing has eight pieces of 16 bits. -/
theorem C14_ipv6_result (env : Env) (s : Str) (a : List Nat) (log : Log)
    (h : ipv6Parse env s = ⟨.ok a, log⟩) : IsV6 a := ipv6Parse_length h

/-- C14. IPv6 parsing never fails with an index error; a ValueError needs a text longer than the
digit limit. -/
theorem C14_ipv6_errors (env : Env) (s : Str) (e : Err) (log : Log)
    (h : ipv6Parse env s = ⟨.error e, log⟩) :
    e = .ipv6Parse ∨ (e = .valueError ∧ 0 < env.maxStrDigits ∧ env.maxStrDigits < s.length) := by
  have := ipv6Parse_post env s
  rw [h] at this
  rcases this with h | ⟨h1, h2, h3⟩
  · exact .inl h
  · exact .inr ⟨h1, by omega, h3⟩

/-- C14 (partial: for texts not longer than the digit limit, or no limit set). The only error is
IPv6AddressParseError. -/
theorem C14_ipv6_parse_error_only_partial (env : Env) (s : Str) (e : Err) (log : Log)
    (hl : env.maxStrDigits = 0 ∨ s.length ≤ env.maxStrDigits)
    (h : ipv6Parse env s = ⟨.error e, log⟩) : e = .ipv6Parse := by
  rcases C14_ipv6_errors env s e log h with h | ⟨_, h1, h2⟩
  · exact h
  · omega

example : ∃ a log, ipv6Parse exEnv u!"::ffff:1.2.3.4" = ⟨.ok a, log⟩ := ⟨_, _, rfl⟩
example : ∃ e log, ipv6Parse exEnv u!"1:2:3" = ⟨.error e, log⟩ := ⟨_, _, rfl⟩

/-! ### C15 -/

/-- C15 is false: three kinds of text are treated differently from the standard. -/
theorem C15_false_ipv6_syntax :
    ((ipv6Parse exEnv u!":::1").val = some [0, 0, 0, 0, 0, 0, 0, 1] ∧ Spec.ipv6Parse u!":::1" = none) ∧
    ((ipv6Parse exEnv u!"1.2.3.4::").val = some [0x102, 0x304, 0, 0, 0, 0, 0, 0] ∧
      Spec.ipv6Parse u!"1.2.3.4::" = none) ∧
    ((ipv6Parse exEnv u!"1:2:3:4:5:6:7::").val = none ∧
      Spec.ipv6Parse u!"1:2:3:4:5:6:7::" = some [1, 2, 3, 4, 5, 6, 7, 0]) := by
  decide +kernel

/-- C15 (partial: without the three kinds of text of `C15_false_ipv6_syntax`: a leading ":::", a dot
before a colon, a final "::" that is the eighth colon). IPv6 parsing accepts what the standard's
parser accepts, with the same value. -/
theorem C15_ipv6_standard_partial (env : Env) (he : EnvOK env) (s : Str)
    (h1 : ∀ t, s ≠ u!":::" ++ t)
    (h2 : ∀ x y, s = x ++ c!"." :: y → c!":" ∉ y)
    (h3 : ¬ (s.count c!":" = 8 ∧ ∃ t, s = t ++ u!"::")) :
    (ipv6Parse env s).val = Spec.ipv6Parse s := by
  apply ipv6Parse_agree env he s h1 h2
  intro ⟨h4, h5⟩
  rw [Nat.zero_add] at h4
  rcases h5 with h5 | ⟨h5, _⟩
  · exact h3 ⟨h4, h5⟩
  · cases h5

-- the hypotheses are met by compressed and IPv4-mapped addresses and by malformed ones
example : (ipv6Parse exEnv u!"64:ff9b::192.0.2.33").val = Spec.ipv6Parse u!"64:ff9b::192.0.2.33" :=
  C15_ipv6_standard_partial exEnv (.inr (by decide)) _ (by intro t h; cases h)
    (by
      intro x y h hy
      have hx : x.length ≤ 18 := by
        have := congrArg List.length h
        simp at this; omega
      have : ∀ n, n ≤ 18 → (u!"64:ff9b::192.0.2.33")[n]? = some c!"." →
          c!":" ∉ (u!"64:ff9b::192.0.2.33").drop (n + 1) := by decide
      refine this x.length hx ?_ ?_
      · rw [h]; simp
      · rw [h, List.drop_append, List.mem_append]; right; simpa using hy)
    (by rintro ⟨h, _⟩; exact absurd h (by decide))

/-- C15. The exclusion is exact: the code and the standard differ on a text exactly if it is accepted by the code and begins with
":::" or has a dot before a colon, or if it is seven groups of up to four hexadecimal digits, each with a colon behind it, and a
colon behind them. In the first case only the code accepts it, in the second only the standard. -/
theorem C15_exact (env : Env) (he : EnvOK env) (s : Str) :
    ((ipv6Parse env s).val ≠ Spec.ipv6Parse s ↔
      (((∃ t, s = u!":::" ++ t) ∨ ∃ x y, s = x ++ c!"." :: y ∧ c!":" ∈ y) ∧ (ipv6Parse env s).val ≠ none) ∨
      ∃ ps : List Str, ps.length = 7 ∧ (∀ p ∈ ps, 1 ≤ p.length ∧ p.length ≤ 4 ∧ ∀ c ∈ p, Spec.isHex c = true) ∧
        s = (ps.flatMap (· ++ u!":")) ++ u!":") ∧
    (((∃ t, s = u!":::" ++ t) ∨ ∃ x y, s = x ++ c!"." :: y ∧ c!":" ∈ y) → Spec.ipv6Parse s = none) ∧
    ((∃ ps : List Str, ps.length = 7 ∧ (∀ p ∈ ps, 1 ≤ p.length ∧ p.length ≤ 4 ∧ ∀ c ∈ p, Spec.isHex c = true) ∧
        s = (ps.flatMap (· ++ u!":")) ++ u!":") → (ipv6Parse env s).val = none ∧ Spec.ipv6Parse s ≠ none) := by
  have hA : ((∃ t, s = u!":::" ++ t) ∨ ∃ x y, s = x ++ c!"." :: y ∧ c!":" ∈ y) → Spec.ipv6Parse s = none := by
    rintro (⟨t, rfl⟩ | ⟨x, y, rfl, hy⟩)
    · rfl
    · cases hr : Spec.ipv6Parse (x ++ c!"." :: y) with
      | none => rfl
      | some a => exact absurd hy (spec_noDotColon hr x y rfl)
  have hB : (∃ ps : List Str, ps.length = 7 ∧ (∀ p ∈ ps, 1 ≤ p.length ∧ p.length ≤ 4 ∧ ∀ c ∈ p, Spec.isHex c = true) ∧
        s = (ps.flatMap (· ++ u!":")) ++ u!":") → (ipv6Parse env s).val = none ∧ Spec.ipv6Parse s ≠ none := by
    intro h
    obtain ⟨h1, h2, h3⟩ := spec_eighth.2 h
    exact ⟨ipv6Parse_eighth env h1 h2, h3⟩
  refine ⟨⟨fun hne => ?_, ?_⟩, hA, hB⟩
  · by_cases h12 : (∃ t, s = u!":::" ++ t) ∨ ∃ x y, s = x ++ c!"." :: y ∧ c!":" ∈ y
    · exact .inl ⟨h12, by rwa [hA h12] at hne⟩
    · by_cases h3 : s.count c!":" = 8 ∧ ∃ t, s = t ++ u!"::"
      · rw [ipv6Parse_eighth env h3.1 h3.2] at hne
        exact .inr (spec_eighth.1 ⟨h3.1, h3.2, hne.symm⟩)
      · exact absurd (C15_ipv6_standard_partial env he s (fun t h => h12 (.inl ⟨t, h⟩))
          (fun x y h hy => h12 (.inr ⟨x, y, h, hy⟩)) h3) hne
  · rintro (⟨h1, h2⟩ | h)
    · rw [hA h1]; exact h2
    · rw [(hB h).1]; exact (hB h).2.symm

example : (ipv6Parse exEnv u!"1:2:3:4:5:6:abcd::").val ≠ Spec.ipv6Parse u!"1:2:3:4:5:6:abcd::" :=
  (C15_exact exEnv (.inr (by decide)) _).1.2
    (.inr ⟨[u!"1", u!"2", u!"3", u!"4", u!"5", u!"6", u!"abcd"], rfl, by decide, by decide⟩)

/-- C15. What the code does with the texts that only it accepts: it reads ":::" at the start as "::0:". -/
theorem C15_triple (env : Env) (t : Str) : ipv6Parse env (u!":::" ++ t) = ipv6Parse env (u!"::0:" ++ t) := ipv6Parse_triple env t

/-- C15. It reads an IPv4 address with a colon behind it as the two pieces it stands for. -/
theorem C15_quad (env : Env) (he : EnvOK env) (n : Nat) (hn : n < 2 ^ 32) (x y : Str) (hx : ∀ c, x.getLast? = some c → c = c!":") :
    (ipv6Parse env (x ++ (Spec.dotted n ++ u!":" ++ y))).val =
      (ipv6Parse env (x ++ (Spec.hexText (n / 2 ^ 16) ++ u!":" ++ Spec.hexText (n % 2 ^ 16) ++ u!":" ++ y))).val := by
  have := ipv6Parse_quad env he hn hx y
  simpa using this

example : (ipv6Parse exEnv u!"1::127.0.0.1:2").val = (ipv6Parse exEnv u!"1::7f00:1:2").val := by
  have := C15_quad exEnv (.inr (by decide)) 0x7f000001 (by decide) u!"1::" u!"2" (by decide)
  rw [← natHex_eq, ← natHex_eq, show Spec.dotted 0x7f000001 = u!"127.0.0.1" by decide +kernel,
    show natHex (0x7f000001 / 2 ^ 16) = u!"7f00" by decide +kernel, show natHex (0x7f000001 % 2 ^ 16) = u!"1" by decide +kernel] at this
  exact this

/-! ### C16 -/

/-- C16. If there is a run of two or more zero pieces, the first of the longest ones is written as
"::"; the pieces before and behind it are written in hexadecimal. -/
theorem C16_ipv6_compress (a : List Nat) (h : IsV6 a) (i n : Nat) (hr : FirstLongestZeroRun a i n) :
    ipv6Serialize a = hexColons (a.take i) ++ u!"::" ++ hexColons (a.drop (i + n)) :=
  ipv6Serialize_run h.1 hr

/-- C16. Otherwise all eight pieces are written. -/
theorem C16_ipv6_no_compress (a : List Nat) (h : IsV6 a) (hr : ∀ i n, 2 ≤ n → ¬ ZeroRun a i n) :
    ipv6Serialize a = hexColons a := ipv6Serialize_plain h.1 hr

/-- C16. One of the two cases applies. -/
theorem C16_ipv6_cases (a : List Nat) (h : IsV6 a) :
    (∃ i n, FirstLongestZeroRun a i n) ∨ ∀ i n, 2 ≤ n → ¬ ZeroRun a i n := by
  cases hc : v6FindCompress a 0 none none 1 0 with
  | none => exact .inr (v6FindCompress_none h.1 hc)
  | some c => exact .inl ⟨c, v6FindCompress_some h.1 hc⟩

-- the first of two equally long runs
example : FirstLongestZeroRun [1, 0, 0, 5, 0, 0, 3, 4] 1 2 := by
  obtain ⟨n, hn⟩ := v6FindCompress_some (a := [1, 0, 0, 5, 0, 0, 3, 4]) (i := 1) rfl rfl
  have h2 : ¬ ZeroRun [1, 0, 0, 5, 0, 0, 3, 4] 1 3 := fun h => absurd (h.2 2 (by omega)) (by decide)
  have : n = 2 := by
    have := hn.1
    by_cases h3 : 3 ≤ n
    · exact absurd (ZeroRun.shorter hn.2.1 h3) h2
    · omega
  subst this; exact hn

end Urlstd.Props
