/-
The hosts that have no validation error, by rules, for property C98. The IDNA library is a parameter.
-/
import Verif.Spec.HostDenote
import Verif.Spec.ErrorFree

namespace Urlstd.Spec

/-- One to four decimal numbers up to 255, separated by dots. A number may be written in any way that `int` reads, without a leading
zero. -/
def PlainAddress (env : Env) (a : Str) : Prop :=
  (strictlySplit c!"." [] a).length ≤ 4 ∧
    ∀ p ∈ strictlySplit c!"." [] a, (partRadix p).1 = 10 ∧ ∃ v : Nat, v ≤ 255 ∧ PyInt env 10 p v

/-- a domain that is no address, or an address of decimal bytes -/
def ErrorFreeName (env : Env) (a : Str) : Prop :=
  (∀ c ∈ a, ¬ ForbiddenDomainCP c) ∧ (EndsInNumber env a → PlainAddress env a)

/-- the hosts without a validation error -/
def ErrorFreeHost (env : Env) (special : Bool) (h : Str) : Prop :=
  (∃ a p, h = u!"[" ++ a ++ u!"]" ∧ V6Text a p) ∨
  (h.head? ≠ some c!"[" ∧
    if special then h = [] ∨ ∃ a, DomainDenotes (env.nameToAscii false) (utf8Decode (percentDecode (utf8 h))) (.ok a) ∧ ErrorFreeName env a
    else URLUnits ForbiddenHostCP h)

end Urlstd.Spec
