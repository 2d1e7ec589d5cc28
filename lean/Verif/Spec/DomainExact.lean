/-
On which texts the library's validators for hosts disagree with the standard.
-/
import Verif.Spec.Domain
import Verif.Spec.Deviant

namespace Urlstd.Spec

/-- four numbers up to 255 joined by dots, each as `int()` reads it and not with a prefix for another radix -/
def PyQuad (env : Env) (s : Str) : Prop :=
  ∃ a b c d, strictlySplit c!"." [] s = [a, b, c, d] ∧ ∀ p ∈ [a, b, c, d], (partRadix p).1 = 10 ∧ ∃ v : Nat, PyInt env 10 p v ∧ v ≤ 255

/-- The texts on which `HostValidator.is_valid` disagrees with the standard: an odd IPv6 address in brackets; or a text that
ends in a number for the code, is no IPv4 address as the standard writes them, and is a valid domain or a quad of Python but
not both. -/
def OddHostString (env : Env) (host : Str) : Prop :=
  (∃ a, host = u!"[" ++ a ++ u!"]" ∧ OddIPv6 env.quiet a) ∨
  ((∀ a, host ≠ u!"[" ++ a ++ u!"]") ∧ EndsInNumber env host ∧ (∀ n, n < 2 ^ 32 → host ≠ dotted n) ∧
    ¬ (PyQuad env host ↔ ValidDomain (env.nameToAscii true) (env.nameToUnicode true) host))

end Urlstd.Spec
