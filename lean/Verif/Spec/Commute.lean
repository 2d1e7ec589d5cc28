/-
Which operations on a `URL` are independent of each other.
-/
import Verif.Url

namespace Urlstd.Spec

/-- the values a `URL` object consists of, and some more that operations look at -/
inductive Facet where
  | scheme | username | password | host | port | path | query | fragment | params
  /-- whether the scheme is special -/
  | special
  /-- whether the host is null or empty -/
  | bare
  /-- whether the host is null -/
  | null
  /-- whether the path is opaque -/
  | opq
  deriving DecidableEq, Repr

/-- two objects have the same value of a facet -/
def Facet.Same (o o' : URLObj) : Facet → Prop
  | .scheme => o.url.scheme = o'.url.scheme
  | .username => o.url.username = o'.url.username
  | .password => o.url.password = o'.url.password
  | .host => o.url.host = o'.url.host
  | .port => o.url.port = o'.url.port
  | .path => o.url.path = o'.url.path
  | .query => o.url.query = o'.url.query
  | .fragment => o.url.fragment = o'.url.fragment
  | .params => o.params = o'.params
  | .special => o.url.isSpecial = o'.url.isSpecial
  | .bare => o.url.hostNoneOrEmpty = o'.url.hostNoneOrEmpty
  | .null => o.url.host.isNone = o'.url.host.isNone
  | .opq => o.url.hasOpaquePath = o'.url.hasOpaquePath

/-- all facets -/
def Facet.all : List Facet :=
  [.scheme, .username, .password, .host, .port, .path, .query, .fragment, .params, .special, .bare, .null, .opq]

/-- Some operations look at more for some URLs than for others: those with an opaque path, and else those without host, those
with a special scheme other than "file", and the rest. -/
inductive Kind where
  | opaque | hostless | web | hosted
  deriving DecidableEq, Repr

/-- the kind of a URL -/
def kindOf (u : Rec) : Kind :=
  match u.path with
  | .opaque _ => .opaque
  | .list _ =>
    if u.host = none then .hostless
    else if [u!"ftp", u!"http", u!"https", u!"ws", u!"wss"].contains u.scheme then .web else .hosted

/-- what an operation looks at, besides what it may change -/
def reads (k : Kind) : Op → List Facet
  | .hash _ => if k = .opaque then [.query] else []
  | .host _ | .hostname _ =>
    match k with
    | .opaque => [.opq]
    | .web => [.scheme]
    | .hostless | .hosted => [.scheme, .username, .password, .port]
  | .href _ => []
  | .password _ | .username _ | .port _ => [.scheme, .bare]
  | .pathname _ => if k = .opaque then [.opq] else [.scheme, .null]
  | .protocol _ => [.scheme, .username, .password, .port, .bare]
  | .search _ => if k = .opaque then [.special, .fragment] else [.special]
  | .spAppend _ _ | .spDelete _ _ | .spSet _ _ | .spSort => if k = .opaque then [.fragment] else []

/-- what an operation may change -/
def writes (k : Kind) : Op → List Facet
  | .hash _ => if k = .opaque then [.fragment, .path] else [.fragment]
  | .host _ =>
    match k with
    | .opaque => []
    | .web => [.host, .port]
    | .hosted => [.host, .bare, .port]
    | .hostless => [.host, .bare, .null, .port]
  | .hostname _ =>
    match k with
    | .opaque => []
    | .web => [.host]
    | .hosted => [.host, .bare]
    | .hostless => [.host, .bare, .null]
  | .href _ => Facet.all
  | .password _ => [.password]
  | .pathname _ => if k = .opaque then [] else [.path]
  | .port _ => [.port]
  | .protocol _ => [.scheme, .port]
  | .search _ => if k = .opaque then [.query, .params, .path] else [.query, .params]
  | .username _ => [.username]
  | .spAppend _ _ | .spDelete _ _ | .spSet _ _ | .spSort =>
    if k = .opaque then [.query, .params, .path] else [.query, .params]

/-- neither operation may change what the other one looks at or may change -/
def independent (k : Kind) (a b : Op) : Bool :=
  (writes k a).all (fun f => !(reads k b).contains f && !(writes k b).contains f) &&
  (writes k b).all (fun f => !(reads k a).contains f)

/-- what is assigned, for the attributes that do not overlap with others; the parameters count as the query -/
def attrOf : Op → Option Facet
  | .hash _ => some .fragment
  | .search _ | .spAppend _ _ | .spDelete _ _ | .spSet _ _ | .spSort => some .query
  | .pathname _ => some .path
  | .hostname _ => some .host
  | .port _ => some .port
  | .username _ => some .username
  | .password _ => some .password
  | .host _ | .href _ | .protocol _ => none

end Urlstd.Spec
