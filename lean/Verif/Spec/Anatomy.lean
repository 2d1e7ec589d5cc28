/-
Where the parts of an absolute URL with an authority are found, in the manner of the regular expression of RFC 3986, appendix
B, and what becomes of each part. No states and no positions: a text is put together from its parts.
-/
import Verif.Spec.Rfc3986

namespace Urlstd.Spec

/-- the parts of the text behind "scheme://" -/
structure Parts where
  userinfo : Option Str := none
  host : Str
  port : Option Str := none
  path : Str := []
  query : Option Str := none
  fragment : Option Str := none
  deriving DecidableEq, Repr

/-- the text: userinfo "@" host ":" port path "?" query "#" fragment -/
def Parts.text (p : Parts) : Str :=
  (p.userinfo.elim [] fun x => x ++ u!"@") ++ p.host ++ (p.port.elim [] fun x => u!":" ++ x) ++ p.path ++
    (p.query.elim [] fun x => u!"?" ++ x) ++ (p.fragment.elim [] fun x => u!"#" ++ x)

/-- the characters that end an authority -/
def AuthorityEnd (special : Bool) (c : Nat) : Prop :=
  c = c!"/" ∨ c = c!"?" ∨ c = c!"#" ∨ (special = true ∧ c = c!"\\")

/-- the last bracket of a text, if there is one, is an opening one -/
def InBrackets (s : Str) : Prop := ∃ a b, s = a ++ u!"[" ++ b ∧ c!"]" ∉ b

/-- The parts are where they belong: the userinfo extends to the last "@" of the authority, the port begins at the first ":" of
the rest that is not in brackets, the path at the first slash behind, the query at the first "?", the fragment at the first "#". If
the scheme is special, a backslash is a slash, and further slashes in front of the authority do not count as path. -/
structure Parts.OK (special : Bool) (p : Parts) : Prop where
  userinfo : ∀ x, p.userinfo = some x → ∀ c ∈ x, ¬ AuthorityEnd special c
  host : ∀ c ∈ p.host, ¬ AuthorityEnd special c ∧ c ≠ c!"@"
  colon : ∀ a b, p.host = a ++ u!":" ++ b → InBrackets a
  port : ∀ x, p.port = some x → (∀ c ∈ x, ¬ AuthorityEnd special c ∧ c ≠ c!"@") ∧ ¬ InBrackets p.host
  slash : ∀ c, p.path.head? = some c → c = c!"/" ∨ (special = true ∧ c = c!"\\")
  path : ∀ c ∈ p.path, c ≠ c!"?" ∧ c ≠ c!"#"
  query : ∀ x, p.query = some x → c!"#" ∉ x
  start : special = true → p.host = [] → p.userinfo = none → p.port = none → p.path = []

/-- UTF-8 percent-encode with the userinfo percent-encode set -/
def userinfoEncode (s : Str) : Str := percentEncode (fun b => !userinfoSet b) false (utf8 s)

/-- the segments of a path without its first slash -/
def segmentsOf (special : Bool) : Str → List Str
  | [] => [[]]
  | c :: cs =>
    if c = c!"/" ∨ (special = true ∧ c = c!"\\") then [] :: segmentsOf special cs
    else
      match segmentsOf special cs with
      | [] => [[c]]
      | s :: ss => (c :: s) :: ss

/-- take the last segment away; the drive letter of a file URL stays -/
def parent (file : Bool) (out : List Str) : List Str :=
  if file = true ∧ ∃ d ∈ out, out = [d] ∧ isNormDrive d then out else out.dropLast

/-- a segment as it is stored; in a file URL the drive letter at the front is followed by ":" -/
def segment (file : Bool) (out : List Str) (s : Str) : Str :=
  if file = true ∧ out = [] ∧ isDrive s then s.take 1 ++ u!":" else Rfc.pathEncode s

/-- follow the segments: ".." takes one away, "." adds none, others are percent-encoded; what remains ends with a slash if the
last segment is one of these two -/
def follow (file : Bool) : List Str → List Str → List Str
  | out, [] => out
  | out, [s] =>
    if doubleDot s then parent file out ++ [[]] else if singleDot s then out ++ [[]] else out ++ [segment file out s]
  | out, s :: t :: ts =>
    follow file (if doubleDot s then parent file out else if singleDot s then out else out ++ [segment file out s]) (t :: ts)

/-- the scheme is "file" -/
def isFile (scheme : Str) : Bool := scheme == u!"file"

/-- the path of the URL; special URLs have at least one segment -/
def pathOf (scheme : Str) : Str → List Str
  | [] => if isSpecial scheme then [[]] else []
  | _ :: t => follow (isFile scheme) [] (segmentsOf (isSpecial scheme) t)

/-- the port of the URL; Python refuses to convert more than a certain number of digits -/
def portOf (env : Env) (scheme : Str) : Option Str → Except Err (Option Nat)
  | none => .ok none
  | some x =>
    if ¬ ∀ c ∈ x, Digit c then .error .urlParse
    else if x = [] then .ok none
    else if env.maxStrDigits ≠ 0 ∧ env.maxStrDigits < x.length then .error .valueError
    else if decimal x > 65535 then .error .urlParse
    else if isDefault scheme (decimal x) then .ok none
    else .ok (some (decimal x))

/-- the URL with these parts; the host is given to the host parser -/
def Parts.url (env : Env) (scheme : Str) (p : Parts) : Except Err Rec :=
  if p.host = [] ∧ (isSpecial scheme = true ∨ p.userinfo ≠ none ∨ p.port ≠ none) then .error .urlParse
  else
    match (hostParse env p.host (!isSpecial scheme)).res, portOf env scheme p.port with
    | .error e, _ => .error e
    | .ok _, .error e => .error e
    | .ok h, .ok n => .ok {
        scheme := scheme
        username := userinfoEncode ((p.userinfo.getD []).takeWhile (· != c!":"))
        password := userinfoEncode ((p.userinfo.getD []).dropWhile (· != c!":")).tail
        host := some h
        port := n
        path := .list (pathOf scheme p.path)
        query := p.query.map (queryEncode (isSpecial scheme))
        fragment := p.fragment.map fragmentEncode }

/-- a path, "?" and a query, "#" and a fragment -/
def tailText (path : Str) (query fragment : Option Str) : Str :=
  path ++ (query.elim [] fun x => u!"?" ++ x) ++ (fragment.elim [] fun x => u!"#" ++ x)

/-- the parts of such a text are where they belong -/
def TailOK (path : Str) (query : Option Str) : Prop :=
  (∀ c ∈ path, c ≠ c!"?" ∧ c ≠ c!"#") ∧ ∀ x, query = some x → c!"#" ∉ x

/-- UTF-8 percent-encode each character by itself with the C0 control percent-encode set -/
def opaqueEncode (s : Str) : Str := s.flatMap fun c => percentEncode (fun b => !c0Set b) false (utf8 [c])

/-- a text that parsing does not strip anything from: no tabs and newlines, no control or space at the end -/
def Clean (s : Str) : Prop :=
  IsStr s ∧ (∀ c ∈ s, ¬ TabOrNewline c) ∧ ∀ c, s.getLast? = some c → ¬ C0OrSpace c

instance (s : Str) : Decidable (Clean s) :=
  inferInstanceAs (Decidable (_ ∧ (∀ c ∈ s, ¬ TabOrNewline c) ∧ ∀ c, s.getLast? = some c → ¬ C0OrSpace c))

/-- the first segment of a text is a drive letter -/
def DriveFirst (t : Str) : Prop := ∃ d ∈ (segmentsOf true t).head?, isDrive d = true

instance (t : Str) : Decidable (DriveFirst t) := inferInstanceAs (Decidable (∃ d ∈ (segmentsOf true t).head?, isDrive d = true))

/-- a file URL -/
def fileURL (host : Option Host) (path : List Str) (query fragment : Option Str) : Rec :=
  { scheme := u!"file", host := host, path := .list path, query := query.map (queryEncode true)
    fragment := fragment.map fragmentEncode }

/-- the host that a file URL takes from its base if it has none of its own -/
def inheritedHost (base : Option Rec) : Option Host :=
  match base with
  | some b => if b.scheme = u!"file" then b.host else some (.str [])
  | none => some (.str [])

/-- the drive letter that the path `t` of a file URL takes from the base if it has none of its own -/
def inheritedDrive (base : Option Rec) (t : Str) : List Str :=
  match base with
  | none => []
  | some b =>
    match b.path with
    | .list (p :: _) => if b.scheme = u!"file" ∧ isNormDrive p = true ∧ ¬ DriveFirst t then [p] else []
    | _ => []

example : (⟨some u!"u:p", u!"[::1]", some u!"81", u!"/a/b", some u!"q?", some u!"f#"⟩ : Parts).text =
    u!"u:p@[::1]:81/a/b?q?#f#" := by decide
example : pathOf u!"http" u!"/a/./b\\%2E./c d/.." = [u!"a", []] := by decide +kernel
example : pathOf u!"file" u!"/c|/../a" = [u!"c:", u!"a"] := by decide +kernel

end Urlstd.Spec
