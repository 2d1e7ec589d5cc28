/-
What a host denotes, by rules, for property C97. The IDNA library is a parameter.
-/
import Verif.Spec.IPv6Text
import Verif.Spec.LongQuad
import Verif.Spec.PyInt
import Verif.Spec.HostParser

namespace Urlstd.Spec

/-- In the text of an IPv6 address a group is a dotted address with a part of too many digits, and there is room for its two pieces. -/
def V6Raises (env : Env) (t : Str) : Prop :=
  ∃ x g y, t = x ++ g ++ y ∧ EndsColon x ∧ StartsColon y ∧ LongQuad env.maxStrDigits g ∧ ∃ z a, V6Text (x ++ u!"0:0" ++ z) a

/-- what the text between brackets denotes -/
inductive V6Denotes (env : Env) (t : Str) : Except Err (List Nat) → Prop
  | address (a : List Nat) (h : V6Text t a) : V6Denotes env t (.ok a)
  | raises (h : V6Raises env t) : V6Denotes env t (.error .valueError)
  | refused (h : ∀ a, ¬ V6Text t a) (hr : ¬ V6Raises env t) : V6Denotes env t (.error .ipv6Parse)

/-- what IDNA makes of a name -/
inductive DomainDenotes (icu : Str → IcuOut) (d : Str) : Except Err Str → Prop
  | failure (h : icu d = .failure) : DomainDenotes icu d (.error .idna)
  | errors (a : Str) (bits : Nat) (h : icu d = .ok a bits) (hb : ¬ noOtherError bits ∨ a = []) : DomainDenotes icu d (.error .hostParse)
  | name (a : Str) (bits : Nat) (h : icu d = .ok a bits) (hb : noOtherError bits) (hne : a ≠ []) : DomainDenotes icu d (.ok a)

/-- a text whose numbers cannot be written out where they have to -/
def V4Raises (env : Env) (a : Str) : Prop :=
  (ipv4Parts a).length ≤ 4 ∧ ∃ vs, PartsRead env (ipv4Parts a) vs ∧ Raises env vs

/-- what a domain denotes -/
inductive NameDenotes (env : Env) (a : Str) : Except Err Host → Prop
  | forbidden (c : Nat) (hc : c ∈ a) (hf : ForbiddenDomainCP c) : NameDenotes env a (.error .hostParse)
  | name (hc : ∀ c ∈ a, ¬ ForbiddenDomainCP c) (hn : ¬ EndsInNumber env a) : NameDenotes env a (.ok (.str a))
  | address (n : Nat) (hc : ∀ c ∈ a, ¬ ForbiddenDomainCP c) (hn : EndsInNumber env a) (h : Address env a n) :
      NameDenotes env a (.ok (.ipv4 n))
  | raises (hc : ∀ c ∈ a, ¬ ForbiddenDomainCP c) (hn : EndsInNumber env a) (h : V4Raises env a) : NameDenotes env a (.error .valueError)
  | refused (hc : ∀ c ∈ a, ¬ ForbiddenDomainCP c) (hn : EndsInNumber env a) (h : ∀ n, ¬ Address env a n) (hr : ¬ V4Raises env a) :
      NameDenotes env a (.error .ipv4Parse)

/-- What a host denotes in a URL whose scheme is special or not. -/
inductive HostDenotes (env : Env) (special : Bool) : Str → Except Err Host → Prop
  | empty : HostDenotes env special [] (.ok (.str []))
  | unclosed (t : Str) (h : ∀ u, u!"[" ++ t ≠ u ++ u!"]") : HostDenotes env special (u!"[" ++ t) (.error .ipv6Parse)
  | brackets (t : Str) (a : List Nat) (h : V6Denotes env t (.ok a)) : HostDenotes env special (u!"[" ++ t ++ u!"]") (.ok (.ipv6 a))
  | badBrackets (t : Str) (e : Err) (h : V6Denotes env t (.error e)) : HostDenotes env special (u!"[" ++ t ++ u!"]") (.error e)
  | plain (t : Str) (hs : special = false) (hne : t ≠ []) (h : t.head? ≠ some c!"[") (hf : ∀ c ∈ t, ¬ ForbiddenHostCP c) :
      HostDenotes env special t (.ok (.str (percentEncode (fun b => !c0Set b) false (utf8 t))))
  | forbidden (t : Str) (c : Nat) (hs : special = false) (h : t.head? ≠ some c!"[") (hc : c ∈ t) (hf : ForbiddenHostCP c) :
      HostDenotes env special t (.error .hostParse)
  | noDomain (t : Str) (e : Err) (hs : special = true) (hne : t ≠ []) (h : t.head? ≠ some c!"[")
      (hd : DomainDenotes (env.nameToAscii false) (utf8Decode (percentDecode (utf8 t))) (.error e)) :
      HostDenotes env special t (.error e)
  | domain (t a : Str) (x : Except Err Host) (hs : special = true) (hne : t ≠ []) (h : t.head? ≠ some c!"[")
      (hd : DomainDenotes (env.nameToAscii false) (utf8Decode (percentDecode (utf8 t))) (.ok a)) (hx : NameDenotes env a x) :
      HostDenotes env special t x

end Urlstd.Spec
