/-
The hosts that the code reads differently from the standard.
-/
import Verif.Spec.PyInt
import Verif.Spec.HostParser

namespace Urlstd.Spec

/-- a number for the standard's ends-in-a-number checker -/
def StandardEnd (p : Str) : Prop := (p ≠ [] ∧ ∀ c ∈ p, isDigit c = true) ∨ (ipv4Number p).isSome = true

/-- The last part is a number for Python only. -/
def OddEnd (env : Env) (s : Str) : Prop :=
  ∃ p, (ipv4Parts s).getLast? = some p ∧ ¬ StandardEnd p ∧ ∃ v, PartReads env p v

/-- The text is an address for the code, but one of its parts is no number for the standard, or a part before the last is above
255. -/
def OddAddress (env : Env) (s : Str) : Prop :=
  ∃ n, Address env s n ∧ ((∃ p ∈ ipv4Parts s, ipv4Number p = none) ∨
    ∃ vs, (ipv4Parts s).mapM ipv4Number = some vs ∧ ∃ v ∈ vs.dropLast, 255 < v)

/-- Seven groups of up to four hexadecimal digits, each with a colon behind it, and a colon behind them. -/
def SevenGroups (s : Str) : Prop :=
  ∃ ps : List Str, ps.length = 7 ∧ (∀ p ∈ ps, 1 ≤ p.length ∧ p.length ≤ 4 ∧ ∀ c ∈ p, isHex c = true) ∧
    s = (ps.flatMap (· ++ u!":")) ++ u!":"

/-- The text begins with ":::" or has a dot before a colon, and the code accepts it; or it is seven groups with two colons at the
end, which the code does not accept. -/
def OddIPv6 (env : Env) (s : Str) : Prop :=
  (((∃ t, s = u!":::" ++ t) ∨ ∃ x y, s = x ++ c!"." :: y ∧ c!":" ∈ y) ∧ ∃ a, (Urlstd.ipv6Parse env s).res = .ok a) ∨ SevenGroups s

/-- the hosts that the code reads differently from the standard -/
def OddHost (env : Env) (t : Str) (isOpaque : Bool) : Prop :=
  (∃ x, t = u!"[" ++ x ++ u!"]" ∧ OddIPv6 env x) ∨
  (isOpaque = false ∧ t.head? ≠ some c!"[" ∧ ∃ a, domainToASCII (env.nameToAscii false) (utf8Decode (percentDecode (utf8 t))) = some a ∧
    (∀ c ∈ a, ¬ ForbiddenDomainCP c) ∧ (OddEnd env a ∨ (endsInANumber a = true ∧ OddAddress env a)))

end Urlstd.Spec
