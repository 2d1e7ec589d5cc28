/-
URL records and their serialization (parse.py:113-136, 271-278, 1628-1877).
-/
import Verif.Host

namespace Urlstd

/-- `URLRecord.path`: a string (opaque path) or a list of segments. -/
inductive Path where
  | opaque (s : Str)
  | list (segs : List Str)
  deriving DecidableEq, Repr, Inhabited

/-- `URLRecord` (parse.py:1628-1657). `blob_url_entry` is unused by the code and left out. -/
structure Rec where
  scheme : Str := []
  username : Str := []
  password : Str := []
  host : Option Host := none
  port : Option Nat := none
  path : Path := .list []
  query : Option Str := none
  fragment : Option Str := none
  deriving DecidableEq, Repr, Inhabited

/-- `SPECIAL_SCHEMES.get(scheme)` together with membership (parse.py:129-136):
`none` = not special, `some none` = special without default port. -/
def specialPort (scheme : Str) : Option (Option Nat) :=
  if scheme = u!"ftp" then some (some 21)
  else if scheme = u!"file" then some none
  else if scheme = u!"http" then some (some 80)
  else if scheme = u!"https" then some (some 443)
  else if scheme = u!"ws" then some (some 80)
  else if scheme = u!"wss" then some (some 443)
  else none

/-- `scheme in SPECIAL_SCHEMES`. -/
def isSpecialScheme (scheme : Str) : Bool := (specialPort scheme).isSome

/-- `SPECIAL_SCHEMES.get(scheme) == port` for an integer `port` (parse.py:3696, 3924). -/
def isDefaultPort (scheme : Str) (port : Nat) : Bool := specialPort scheme == some (some port)

/-- `URLRecord.is_special` (parse.py:1766-1774). -/
def Rec.isSpecial (u : Rec) : Bool := isSpecialScheme u.scheme

/-- `URLRecord.has_opaque_path` (parse.py:1729-1736). -/
def Rec.hasOpaquePath (u : Rec) : Bool :=
  match u.path with
  | .opaque _ => true
  | .list _ => false

/-- `URLRecord.includes_credentials` (parse.py:1746-1754). -/
def Rec.includesCredentials (u : Rec) : Bool := !u.username.isEmpty || !u.password.isEmpty

/-- truth value of `url.port`: `None` and 0 are false (parse.py:3386, 3906, 3924). -/
def Rec.portTruthy (u : Rec) : Bool :=
  match u.port with
  | none => false
  | some p => p != 0

/-- host is `None` or the empty string (parse.py:1708-1709, 3911-3917). -/
def Rec.hostNoneOrEmpty (u : Rec) : Bool :=
  match u.host with
  | none => true
  | some (.str s) => s.isEmpty
  | some _ => false

/-- `URLRecord.cannot_have_username_password_port` (parse.py:1699-1711). -/
def Rec.cannotHaveUPP (u : Rec) : Bool := u.hostNoneOrEmpty || u.scheme == u!"file"

/-- `SINGLE_DOT_PATH_SEGMENTS` (parse.py:113). -/
def isSingleDot (s : Str) : Bool := [u!".", u!"%2e", u!"%2E"].contains s

/-- `DOUBLE_DOT_PATH_SEGMENTS` (parse.py:115-127). -/
def isDoubleDot (s : Str) : Bool :=
  [u!"..", u!".%2e", u!".%2E", u!"%2e.", u!"%2E.", u!"%2e%2e", u!"%2e%2E", u!"%2E%2e",
    u!"%2E%2E"].contains s

/-- `URLRecord.shorten_path` on a list path (parse.py:1864-1877). -/
def shortenPath (scheme : Str) (path : List Str) : List Str :=
  match path with
  | [] => []
  | [p] => if scheme == u!"file" && isNormalizedWindowsDriveLetter p then [p] else []
  | _ => path.dropLast

/-- `URLRecord.serialize_path` (parse.py:1816-1827). -/
def serializePath : Path → Str
  | .opaque s => s
  | .list segs => segs.flatMap fun seg => c!"/" :: seg

/-- `URLRecord.serialize_host` (parse.py:1808-1814). -/
def Rec.serializeHost (u : Rec) : Str :=
  match u.host with
  | none => []
  | some h => hostSerialize h

/-- the credentials part of the serialization, with "@" (parse.py:1842-1846, 466-470). -/
def Rec.serializeCredentials (u : Rec) : Str :=
  if u.includesCredentials then
    u.username ++ (if u.password.isEmpty then [] else c!":" :: u.password) ++ u!"@"
  else []

/-- `f":{port}"` or nothing (parse.py:1848-1849). -/
def Rec.serializePort (u : Rec) : Str :=
  match u.port with
  | none => []
  | some p => c!":" :: natDec p

/-- the condition for writing "/." (parse.py:1850-1856). -/
def Rec.needsDot (u : Rec) : Bool :=
  u.host.isNone &&
    (match u.path with
      | .list (s :: _ :: _) => s.isEmpty
      | _ => false)

/-- `URLRecord.serialize_url` (parse.py:1829-1862). -/
def Rec.serialize (u : Rec) (excludeFragment : Bool := false) : Str :=
  u.scheme ++ u!":" ++
  (match u.host with
    | some h => u!"//" ++ u.serializeCredentials ++ hostSerialize h ++ u.serializePort
    | none => []) ++
  (if u.needsDot then u!"/." else []) ++
  serializePath u.path ++
  (match u.query with
    | some q => c!"?" :: q
    | none => []) ++
  (if excludeFragment then [] else
    match u.fragment with
    | some f => c!"#" :: f
    | none => [])

/-- `URLRecord.equals` and `__eq__` (parse.py:1659-1672, 1713-1727). -/
def Rec.equals (u v : Rec) (excludeFragments : Bool := false) : Bool :=
  u.serialize excludeFragments == v.serialize excludeFragments

/-- `potentially_rstrip_from_opaque_path` (parse.py:271-278). `str.rstrip()` strips every Unicode
white space; opaque paths of parsed URLs contain printable ASCII only, for which that is the space;
the other ASCII white space is included here, non-ASCII white space is not. -/
def potentiallyRstrip (u : Rec) : Rec :=
  match u.path, u.fragment, u.query with
  | .opaque s, none, none =>
    let s' := (s.reverse.dropWhile fun c => isPySpace c || (0x1C ≤ c && c ≤ 0x1F)).reverse
    { u with path := .opaque s' }
  | _, _, _ => u

end Urlstd
