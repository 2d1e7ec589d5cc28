/-
The texts that raise the ValueError of CPython's limit on the digits of a number, for property C95.
-/
import Verif.Spec.LongQuad
import Verif.Spec.PyInt
import Verif.Spec.Refuse

namespace Urlstd.Spec

/-- An IPv6 address that raises ValueError: a group of it is a dotted address with an overlong part, and the groups in front of it leave
room for two pieces. -/
def IPv6Raises (env : Env) (s : Str) : Prop :=
  ∃ x g y, s = x ++ g ++ y ∧ EndsColon x ∧ StartsColon y ∧ LongQuad env.maxStrDigits g ∧
    ∃ z a, (Urlstd.ipv6Parse env (x ++ u!"0:0" ++ z)).res = .ok a

/-- A host that raises ValueError: an IPv6 address of this kind in brackets, or, where the scheme is special, a domain that ends in a
number and whose numbers cannot be written out where they have to. -/
def HostRaises (env : Env) (special : Bool) (h : Str) : Prop :=
  (∃ s, h = u!"[" ++ s ++ u!"]" ∧ IPv6Raises env s) ∨
  (special = true ∧ h ≠ [] ∧ h.head? ≠ some c!"[" ∧ ∃ a, (domainToAscii env (utf8Decode (percentDecode (utf8 h))) false).res = .ok a ∧
    (∀ c ∈ a, ¬ ForbiddenDomainCP c) ∧ EndsInNumber env a ∧ (ipv4Parts a).length ≤ 4 ∧ ∃ vs, PartsRead env (ipv4Parts a) vs ∧ Raises env vs)

/-- An authority that raises ValueError: because of its host, or, if the host is good, of a port with too many digits. -/
def AuthorityRaises (env : Env) (scheme a : Str) : Prop :=
  if scheme = u!"file" then isDrive a = false ∧ HostRaises env true a
  else ∃ userinfo host port, (Parts.mk userinfo host port [] none none).OK (isSpecial scheme) ∧
    a = (Parts.mk userinfo host port [] none none).text ∧
    (HostRaises env (isSpecial scheme) host ∨
      host ≠ [] ∧ (∃ v, (hostParse env host (!isSpecial scheme)).res = .ok v) ∧
        ∃ x, port = some x ∧ (∀ c ∈ x, Digit c) ∧ env.maxStrDigits ≠ 0 ∧ env.maxStrDigits < x.length)

/-- A text, without tabs and newlines and without spaces and controls around it, that raises ValueError. -/
def TextRaises (env : Env) (base : Option Rec) (t : Str) : Prop :=
  ∃ front scheme a rest, Front base front scheme ∧ Extent scheme a rest ∧ t = front ++ a ++ rest ∧ AuthorityRaises env scheme a

/-- The same, for a text with a base that can be a text too. -/
def CallRaises (env : Env) (s : Str) : BaseArg → Prop
  | .none => TextRaises env none (dropTabs (stripC0 s))
  | .record b => TextRaises env (some b) (dropTabs (stripC0 s))
  | .str b => TextRaises env none (dropTabs (stripC0 b)) ∨
      ∃ r, (parseUrl env b).res = .ok r ∧ TextRaises env (some r) (dropTabs (stripC0 s))

end Urlstd.Spec
