/-
The parts that a generic parser finds in the text of a URI: RFC 3986, appendix B and section 3.2. Nothing here refers to
schemes, to the URL standard or to the model.
-/
import Verif.Spec.Rfc3986

namespace Urlstd.Spec.Rfc

/-- the groups 2, 4, 5, 7 and 9 of the regular expression
`^(([^:/?#]+):)?(//([^/?#]*))?([^?#]*)(\?([^#]*))?(#(.*))?` -/
structure Split where
  scheme : Option Str
  authority : Option Str
  path : Str
  query : Option Str
  fragment : Option Str
  deriving DecidableEq, Repr

/-- `(([^:/?#]+):)?` and the rest -/
def schemeGroup (s : Str) : Option Str × Str :=
  let x := s.takeWhile fun c => !(u!":/?#").contains c
  match s.dropWhile fun c => !(u!":/?#").contains c with
  | 58 :: rest => if x = [] then (none, s) else (some x, rest)
  | _ => (none, s)

/-- `(//([^/?#]*))?` and the rest -/
def authorityGroup : Str → Option Str × Str
  | 47 :: 47 :: rest =>
    (some (rest.takeWhile fun c => !(u!"/?#").contains c), rest.dropWhile fun c => !(u!"/?#").contains c)
  | s => (none, s)

/-- `(\?([^#]*))?` and the rest -/
def queryGroup : Str → Option Str × Str
  | 63 :: rest => (some (rest.takeWhile (· != c!"#")), rest.dropWhile (· != c!"#"))
  | s => (none, s)

/-- `(#(.*))?` -/
def fragmentGroup : Str → Option Str
  | 35 :: rest => some rest
  | _ => none

/-- appendix B -/
def split (s : Str) : Split :=
  let (scheme, s) := schemeGroup s
  let (authority, s) := authorityGroup s
  let path := s.takeWhile fun c => !(u!"?#").contains c
  let (query, s) := queryGroup (s.dropWhile fun c => !(u!"?#").contains c)
  { scheme, authority, path, query, fragment := fragmentGroup s }

/-- section 3.2: `authority = [ userinfo "@" ] host [ ":" port ]`; the userinfo is "user:password" -/
structure Authority where
  user : Option Str
  password : Option Str
  host : Str
  port : Option Str
  deriving DecidableEq, Repr

/-- the text before the first `c` and the text behind it, or all of the text -/
def cut (c : Nat) (s : Str) : Str × Option Str :=
  (s.takeWhile (· != c), match s.dropWhile (· != c) with | [] => none | _ :: rest => some rest)

/-- `[ userinfo "@" ]` and the rest -/
def userinfoPart (s : Str) : Option Str × Str :=
  match cut c!"@" s with
  | (_, none) => (none, s)
  | (x, some rest) => (some x, rest)

/-- the host is in brackets, or has no ":" -/
def hostPart (s : Str) : Str × Str :=
  if s.head? = some c!"[" then (s.takeWhile (· != c!"]") ++ u!"]", (s.dropWhile (· != c!"]")).tail)
  else (s.takeWhile (· != c!":"), s.dropWhile (· != c!":"))

/-- `[ ":" port ]` -/
def portPart : Str → Option Str
  | 58 :: rest => some rest
  | _ => none

def Authority.read (s : Str) : Authority :=
  let (userinfo, s) := userinfoPart s
  let (host, s) := hostPart s
  { user := userinfo.map fun x => (cut c!":" x).1
    password := userinfo.bind fun x => (cut c!":" x).2
    host
    port := portPart s }

end Urlstd.Spec.Rfc
