/-
Valid domains and valid host strings of the URL Standard (July 2023).
https://url.spec.whatwg.org/#valid-domain, https://url.spec.whatwg.org/#valid-host-string

The IDNA library is a parameter: for each of Unicode ToASCII and Unicode ToUnicode, what it returns for a name with
UseSTD3ASCIIRules, and its error bits. Nothing here refers to the model's validators.
-/
import Verif.Spec.HostParser

namespace Urlstd.Spec

/-- The errors of ICU that Unicode ToASCII with CheckHyphens = false does not have: LEADING_HYPHEN (bit 3),
TRAILING_HYPHEN (4), HYPHEN_3_4 (5). With VerifyDnsLength = true the errors about the length of labels count. -/
def hyphenBits : List Nat := [3, 4, 5]

/-- every error bit that is set is one of `bits` -/
def onlyErrors (bits : List Nat) (errors : Nat) : Prop := ∀ i, i ≤ errors → errors.testBit i = true → i ∈ bits

instance (bits : List Nat) (errors : Nat) : Decidable (onlyErrors bits errors) := by unfold onlyErrors; infer_instance

/-- https://url.spec.whatwg.org/#concept-domain-to-ascii with beStrict = true -/
def strictToASCII (icu : Str → IcuOut) (domain : Str) : Option Str :=
  match icu domain with
  | .failure => none
  | .ok result errors => if onlyErrors hyphenBits errors ∧ result ≠ [] then some result else none

/-- Unicode ToUnicode with CheckHyphens = false gives a result without errors -/
def cleanToUnicode (icu : Str → IcuOut) (domain : Str) : Prop :=
  ∃ result errors, icu domain = .ok result errors ∧ onlyErrors toleratedBits errors

/-- https://url.spec.whatwg.org/#valid-domain: ToUnicode is run on the result of ToASCII -/
def ValidDomain (toASCII toUnicode : Str → IcuOut) (domain : Str) : Prop :=
  ∃ ascii, strictToASCII toASCII domain = some ascii ∧ cleanToUnicode toUnicode ascii

/-- https://url.spec.whatwg.org/#valid-host-string; a valid IPv6-address string is taken to be one that the IPv6 parser
accepts, which never continues after a validation error -/
def ValidHostString (toASCII toUnicode : Str → IcuOut) (host : Str) : Prop :=
  ValidDomain toASCII toUnicode host ∨ (∃ n, n < 2 ^ 32 ∧ host = dotted n) ∨
    ∃ a, host = u!"[" ++ a ++ u!"]" ∧ (ipv6Parse a).isSome = true

/-- ToUnicode has the same verdict on a domain and on its ASCII form, as in UTS 46, where both begin with the same
processing -/
def SameVerdict (toASCII toUnicode : Str → IcuOut) (domain : Str) : Prop :=
  ∀ ascii, strictToASCII toASCII domain = some ascii → (cleanToUnicode toUnicode domain ↔ cleanToUnicode toUnicode ascii)

/-- letters, digits, hyphens and dots -/
def LDH (c : Nat) : Prop := isAlnum c = true ∨ c = c!"-" ∨ c = c!"."

/-- What UseSTD3ASCIIRules and VerifyDnsLength do to ToASCII: they only add errors, and they refuse every ASCII code
point that is not a letter, digit, hyphen or dot, in the name and in the result. The empty name has no ASCII form. -/
structure StrictOK (env : Env) : Prop where
  same : ∀ d a, strictToASCII (env.nameToAscii true) d = some a → domainToASCII (env.nameToAscii false) d = some a
  result : ∀ d a, strictToASCII (env.nameToAscii true) d = some a → ∀ c ∈ a, LDH c
  empty : strictToASCII (env.nameToAscii true) [] = none
  source : ∀ d a, strictToASCII (env.nameToAscii true) d = some a → ∀ c ∈ d, c < 128 → LDH c

end Urlstd.Spec
