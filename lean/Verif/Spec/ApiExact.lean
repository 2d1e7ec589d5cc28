/-
For which operations the library and the URL Standard disagree.
-/
import Verif.Spec.Api

namespace Urlstd.Spec

/-- the strings of an operation are scalar value strings -/
def ScalarOp : Op → Prop
  | .hash v | .href v | .username v | .password v | .pathname v | .port v | .protocol v | .host v | .hostname v | .search v =>
    IsScalarStr v
  | .spAppend n v | .spSet n v => IsScalarStr n ∧ IsScalarStr v.toStr
  | .spDelete n none => IsScalarStr n
  | .spDelete n (some v) => IsScalarStr n ∧ IsScalarStr v.toStr
  | .spSort => True

/-- an escape: "%" with two hexadecimal digits behind it -/
def HasEscape (s : Str) : Prop := ∃ pre a b post, s = pre ++ c!"%" :: a :: b :: post ∧ isHex a ∧ isHex b

/-- "~" is in a name or a value -/
def HasTilde (l : Params) : Prop := ∃ p ∈ l, c!"~" ∈ p.1 ∨ c!"~" ∈ p.2

/-- port 0 and no credentials: the library takes such a URL for one without a port -/
def BarePortZero (u : Rec) : Prop := u.port = some 0 ∧ u.username = [] ∧ u.password = []

/-- The scheme setter disagrees: a special URL on port 0 is to become a file URL. -/
def ProtocolOdd (u : Rec) (v : Str) : Prop :=
  BarePortZero u ∧ Special u.scheme ∧ u.scheme ≠ u!"file" ∧
    ∃ w rest, dropTabs v ++ u!":" = w ++ c!":" :: rest ∧ toLower w = u!"file"

/-- The host setters disagree: a URL on port 0, not special, is to get the empty host. -/
def HostOdd (u : Rec) (v : Str) : Prop :=
  BarePortZero u ∧ ¬ Special u.scheme ∧ isOpaque u = false ∧ u.host ≠ some (.str []) ∧
    ∀ c, (dropTabs v).head? = some c → c = c!"/" ∨ c = c!"?" ∨ c = c!"#"

/-- The operations on which the library and the standard disagree. -/
def Odd (o : URLObj) : Op → Prop
  | .hash _ | .href _ | .username _ | .password _ | .pathname _ | .port _ => False
  | .protocol v => ProtocolOdd o.url v
  | .host v | .hostname v => HostOdd o.url v
  | .search v => ∃ c ∈ v, TabOrNewline c
  | .spAppend n v => HasEscape n ∨ HasEscape v.toStr ∨ HasTilde (o.params ++ [(n, v.toStr)])
  | .spSet n v =>
    setPair (decoded n) (decoded v.toStr) o.params ≠ setPair n v.toStr o.params ∨ HasTilde (setPair n v.toStr o.params)
  | .spDelete n none =>
    HasEscape n ∧ (∃ p ∈ o.params, p.1 = n ∨ p.1 = decoded n) ∨ HasTilde (o.params.filter fun p => p.1 ≠ n)
  | .spDelete n (some (.str s)) =>
    HasEscape n ∧ ((n, s) ∈ o.params ∨ (decoded n, s) ∈ o.params) ∨
      HasTilde (o.params.filter fun p => ¬ (p.1 = n ∧ p.2 = s))
  | .spDelete n (some (.num r)) => (n, r) ∈ o.params ∨ HasTilde o.params
  | .spSort => HasTilde o.params

end Urlstd.Spec
