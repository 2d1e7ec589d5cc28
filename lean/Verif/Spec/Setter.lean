/-
Specifications for the attribute setters of `URL`.
-/
import Verif.Url
import Verif.Spec.Url

namespace Urlstd.Spec

/-- the components of a URL record -/
inductive Comp where
  | scheme | username | password | host | port | path | query | fragment
  deriving DecidableEq

/-- two records have the same value of a component -/
def Comp.Same (u v : Rec) : Comp → Prop
  | .scheme => u.scheme = v.scheme
  | .username => u.username = v.username
  | .password => u.password = v.password
  | .host => u.host = v.host
  | .port => u.port = v.port
  | .path => u.path = v.path
  | .query => u.query = v.query
  | .fragment => u.fragment = v.fragment

/-- two records agree in all components except those listed -/
def AgreeExcept (except : List Comp) (u v : Rec) : Prop := ∀ c : Comp, c ∉ except → c.Same u v

/-- white space that `str.rstrip` removes, as far as ASCII is concerned -/
def AsciiWhite (c : Nat) : Prop := (9 ≤ c ∧ c ≤ 13) ∨ (28 ≤ c ∧ c ≤ 32)

/-- the second path is the first one, or both are opaque and the second is the first without
trailing white space -/
def Stripped (p q : Path) : Prop :=
  q = p ∨ ∃ s w, p = .opaque (s ++ w) ∧ q = .opaque s ∧ ∀ c ∈ w, AsciiWhite c

/-- "A URL cannot have a username/password/port if its host is null or the empty string, or its
scheme is "file"." -/
def CannotHaveUPP (u : Rec) : Prop := u.host = none ∨ u.host = some (.str []) ∨ u.scheme = u!"file"

end Urlstd.Spec

namespace Urlstd.Spec

/-- the components an operation may change -/
def mayChange : Op → List Comp
  | .hash _ => [.fragment, .path]
  | .host _ => [.host, .port]
  | .hostname _ => [.host]
  | .href _ => [.scheme, .username, .password, .host, .port, .path, .query, .fragment]
  | .password _ => [.password]
  | .pathname _ => [.path]
  | .port _ => [.port]
  | .protocol _ => [.scheme, .port]
  | .search _ => [.query, .path]
  | .username _ => [.username]
  | .spAppend _ _ | .spDelete _ _ | .spSet _ _ | .spSort => [.query, .path]

/-- operations that may change `search_params` -/
def changesParams : Op → Bool
  | .href _ | .search _ | .spAppend _ _ | .spDelete _ _ | .spSet _ _ | .spSort => true
  | _ => false

/-- operations on the query or the fragment -/
def changesTail : Op → Bool
  | .hash _ | .search _ | .spAppend _ _ | .spDelete _ _ | .spSet _ _ | .spSort => true
  | _ => false

end Urlstd.Spec
