/-
Properties C10-C12: IPv4 addresses.
-/
import Verif.Lemmas.IPv4b
import Verif.Lemmas.PyNumeral
import Verif.Spec.Example

namespace Urlstd.Props

open Spec

/-! ### C10 -/

/-- C10. The serialization is the dotted-decimal form. -/
theorem C10_ipv4_serialize_dotted (n : Nat) (hn : n < 2 ^ 32) : ipv4Serialize n = dotted n := by
  rw [ipv4Serialize_eq, dotted_natDec, Nat.mod_eq_of_lt (by omega)]

/-- C10. Parsing the serialization of a 32-bit number returns it, without a validation error. -/
theorem C10_ipv4_round_trip (env : Env) (he : EnvOK env) (n : Nat) (hn : n < 2 ^ 32) :
    ipv4Parse env (ipv4Serialize n) = .ok n := by
  rw [ipv4Parse_serialize env he, Nat.mod_eq_of_lt hn]

/-- C10. The serialization is recognised as an IPv4 address. -/
theorem C10_ipv4_serialization_ends_in_number (env : Env) (n : Nat) :
    isEndsInANumber env (ipv4Serialize n) = true :=
  isEndsInANumber_serialize env n

/-- C10. Different addresses have different serializations. -/
theorem C10_ipv4_serialize_injective (m n : Nat) (hm : m < 2 ^ 32) (hn : n < 2 ^ 32)
    (h : ipv4Serialize m = ipv4Serialize n) : m = n := by
  have he : EnvOK exEnv := .inr (by decide)
  have h1 := C10_ipv4_round_trip exEnv he m hm
  rw [h, C10_ipv4_round_trip exEnv he n hn] at h1
  simpa [Res.ok] using h1.symm

example : EnvOK exEnv := .inr (by decide)
example : ipv4Serialize 0xC0A80101 = u!"192.168.1.1" := by decide +kernel

/-! ### C11 -/

/-- C11 is false: the check that parts before the last are at most 255 is only applied
when the last part is at most 255 as well (parse.py:1272-1282). -/
theorem C11_false_out_of_range :
    (hostParse exEnv u!"256.256" false).val = some (.ipv4 (2 ^ 32 + 256)) := by decide +kernel

/-- C11 (partial: unless a part before the last and the last part both exceed 255, see
`C11_false_out_of_range`). An IPv4 host is a 32-bit number. -/
theorem C11_ipv4_in_range_partial (env : Env) (s : Str) (n : Nat) (log : Log)
    (h : ipv4Parse env s = ⟨.ok n, log⟩)
    (hr : (∀ p ∈ (Spec.ipv4Parts s).dropLast, (parseIPv4Number env p).1 ≤ 255) ∨
      (parseIPv4Number env ((Spec.ipv4Parts s).getLastD [])).1 ≤ 255) :
    n < 2 ^ 32 := by
  obtain ⟨h1, h2, h3, h4, h5, h6⟩ := ipv4Parse_ok h
  rw [← partsOf_eq] at hr
  rw [h6]
  apply ipv4Combine_lt h1 _ h5
  rcases hr with hr | hr
  · intro v hv
    rw [← List.map_dropLast, List.mem_map] at hv
    obtain ⟨p, hp, rfl⟩ := hv
    have := hr p hp
    omega
  · intro v hv
    by_contra hv2
    have h4 := h4 ⟨v, hv, by omega⟩
    have hne := partsOf_ne_nil s
    rw [getLastD_eq _ _ h2, List.getLast_map] at h4
    rw [getLastD_eq _ _ hne] at hr
    omega

/-- C11 for whole hosts (partial in the same way): an IPv4 host comes from the ASCII form of the
domain, and lies in [0, 2^32) under the same condition on its parts. -/
theorem C11_host_ipv4_in_range_partial (env : Env) (host : Str) (m : Bool) (n : Nat) (log : Log)
    (h : hostParse env host m = ⟨.ok (.ipv4 n), log⟩)
    (hr : ∀ ascii log', domainToAscii env (utf8Decode (stringPercentDecode host)) false
        = ⟨.ok ascii, log'⟩ →
      (∀ p ∈ (Spec.ipv4Parts ascii).dropLast, (parseIPv4Number env p).1 ≤ 255) ∨
      (parseIPv4Number env ((Spec.ipv4Parts ascii).getLastD [])).1 ≤ 255) :
    n < 2 ^ 32 := by
  unfold hostParse at h
  split at h
  · simp [Res.ok] at h
  · split at h
    · split at h
      · simp [Res.err] at h
      · split at h <;> simp [Res.ok, Res.err] at h
    · split at h
      · split at h <;> simp [Res.ok, Res.err] at h
      · split at h
        · simp [Res.err] at h
        · rename_i ascii log' heq
          split at h
          · simp [Res.err] at h
          · split at h
            · split at h
              · rename_i n' log'' heq2
                simp only [Res.ok, Res.mk.injEq, Except.ok.injEq, Host.ipv4.injEq] at h
                rw [← h.1]
                exact C11_ipv4_in_range_partial env ascii n' log'' heq2 (hr ascii log' heq)
              · simp [Res.err] at h
            · simp [Res.ok] at h

example : (ipv4Parse exEnv u!"0300.0xA80101.").val = some 0xC0A80101 ∧
    (parseIPv4Number exEnv u!"0300").1 ≤ 255 := by decide +kernel

/-! ### C12 -/

/-- C12 is false: "1_0", "+1" and "-0" are read as numbers by `int()`, a second radix prefix is
skipped, and "256.256" is accepted, against the standard. -/
theorem C12_false_number_syntax :
    ((ipv4Parse exEnv u!"1_0.1").val = some 0x0A000001 ∧ Spec.ipv4Parse u!"1_0.1" = none) ∧
    ((ipv4Parse exEnv u!"+1").val = some 1 ∧ Spec.ipv4Parse u!"+1" = none) ∧
    (isEndsInANumber exEnv u!"a.-0" = true ∧ Spec.endsInANumber u!"a.-0" = false) ∧
    ((ipv4Parse exEnv u!"0x0x1").val = some 1 ∧ Spec.ipv4Parse u!"0x0x1" = none) ∧
    ((ipv4Parse exEnv u!"00o7").val = some 7 ∧ Spec.ipv4Parse u!"00o7" = none) ∧
    ((ipv4Parse exEnv u!"256.256").val = some (2 ^ 32 + 256) ∧ Spec.ipv4Parse u!"256.256" = none) := by
  decide +kernel

/-- C12 (partial: unless the last part is one of the numerals that Python reads and the standard does not, see
`C12_false_number_syntax`). Classification as "ends in a number". -/
theorem C12_ends_in_a_number_partial (env : Env) (he : EnvOK env) (s : Str)
    (h : ∀ p, (Spec.ipv4Parts s).getLast? = some p → StrictPart p) :
    isEndsInANumber env s = Spec.endsInANumber s :=
  endsInANumber_agree env he s (by rw [partsOf_eq]; exact h)

/-- C12 (partial: the same for every part, and not both the last part and an earlier one above 255). The IPv4 parser
accepts and returns what the standard's does. -/
theorem C12_ipv4_parse_partial (env : Env) (he : EnvOK env) (s : Str)
    (h : ∀ p ∈ Spec.ipv4Parts s, StrictPart p)
    (hbug : ∀ ns, (Spec.ipv4Parts s).mapM Spec.ipv4Number = some ns →
      ns.getLastD 0 > 255 → ∀ v ∈ ns.dropLast, v ≤ 255) :
    (ipv4Parse env s).val = Spec.ipv4Parse s :=
  ipv4Parse_agree env he s h hbug

/-- C12. The exclusion is exact: on an ASCII part outside of it the standard's number parser fails and the code reads
a number (unless the part has a minus sign, or more characters than the digit limit). -/
theorem C12_exclusion_exact (env : Env) (part : Str) (ha : ∀ c ∈ part, c < 128) (hm : c!"-" ∉ part)
    (hl : env.maxStrDigits = 0 ∨ part.length ≤ env.maxStrDigits) (h : ¬ StrictPart part) :
    Spec.ipv4Number part = none ∧ 0 ≤ (parseIPv4Number env part).1 :=
  not_strictPart env ha hm hl h

-- the hypotheses are met by hosts with hexadecimal, octal and out-of-range parts, and by hyphens and underscores
example : ∀ p ∈ Spec.ipv4Parts u!"0x7F.010.65536", StrictPart p := by
  have e : Spec.ipv4Parts u!"0x7F.010.65536" = [u!"0x7F", u!"010", u!"65536"] := by decide
  rw [e]
  intro p hp
  simp at hp
  rcases hp with rfl | rfl | rfl <;> refine ⟨by decide, fun _ => ?_⟩ <;> unfold RadixText <;> decide
-- hosts with hyphens and underscores are not excluded
example : ∀ p, (Spec.ipv4Parts u!"a_b.my-host").getLast? = some p → StrictPart p := by
  have e : (Spec.ipv4Parts u!"a_b.my-host").getLast? = some u!"my-host" := by decide
  rw [e]
  intro p hp
  simp at hp
  subst hp
  exact strictPart_of_int exEnv (by decide) (.inr (by decide)) (by decide)
example : ¬ StrictPart u!"1_0" := by
  intro h
  have := h.2 ⟨[], [], [], [u!"1", u!"0"], [], rfl, by simp, by simp, by simp, by decide, by simp, by
    unfold RadixText; simp [radixDigit, partRadix]⟩
  unfold RadixText at this
  revert this
  decide
example : Spec.ipv4Parse u!"0x7F.010.65535" = some 0x7F08FFFF ∧ Spec.ipv4Parse u!"1.2.65536" = none := by
  decide +kernel
example : ∀ ns, (Spec.ipv4Parts u!"0x7F.010.65536").mapM Spec.ipv4Number = some ns →
      ns.getLastD 0 > 255 → ∀ v ∈ ns.dropLast, v ≤ 255 := by
  have : (Spec.ipv4Parts u!"0x7F.010.65536").mapM Spec.ipv4Number = some [127, 8, 65536] := by
    decide +kernel
  rw [this]
  intro ns h _
  simp at h; subst h; decide

end Urlstd.Props
