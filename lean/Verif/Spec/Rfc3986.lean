/-
Reference resolution as RFC 3986 defines it (section 5.2), written from its text: strings, an input buffer and an output
buffer. Nothing here refers to the model.
-/
import Verif.Spec.Machine
import Verif.Spec.Reference

namespace Urlstd.Spec.Rfc

/-- "remove the last segment and its preceding "/" (if any) from the output buffer" -/
def cutLast (out : Str) : Str := (out.reverse.dropWhile (· != c!"/")).tail.reverse

/-- "the first path segment in the input buffer (including the initial "/" character, if any, and any subsequent characters
up to, but not including, the next "/" character or the end of the input buffer)" -/
def firstSegment : Str → Str
  | [] => []
  | c :: cs => c :: cs.takeWhile (· != c!"/")

/-- The loop of remove_dot_segments (5.2.4), steps 2A to 2E. Every round shortens the input buffer, or turns "/." or "/.."
into "/"; `n` bounds the number of rounds. -/
def removeLoop : Nat → (input output : Str) → Str
  | 0, _, out => out
  | n + 1, inp, out =>
    if inp = [] then out
    else if u!"../" <+: inp then removeLoop n (inp.drop 3) out
    else if u!"./" <+: inp then removeLoop n (inp.drop 2) out
    else if u!"/./" <+: inp then removeLoop n (u!"/" ++ inp.drop 3) out
    else if inp = u!"/." then removeLoop n u!"/" out
    else if u!"/../" <+: inp then removeLoop n (u!"/" ++ inp.drop 4) (cutLast out)
    else if inp = u!"/.." then removeLoop n u!"/" (cutLast out)
    else if inp = u!"." ∨ inp = u!".." then removeLoop n [] out
    else removeLoop n (inp.drop (firstSegment inp).length) (out ++ firstSegment inp)

/-- 5.2.4 -/
def removeDotSegments (path : Str) : Str := removeLoop (path.length + 1) path []

/-- 5.2.3: "If the base URI has a defined authority component and an empty path, then return a string consisting of "/"
concatenated with the reference's path; otherwise return a string consisting of the reference's path component appended to
all but the last segment of the base URI's path (i.e., excluding any characters after the right-most "/" in the base URI
path, or excluding the entire base URI path if it does not contain any "/" characters)." -/
def merge (authority : Bool) (base ref : Str) : Str :=
  if authority ∧ base = [] then u!"/" ++ ref
  else (base.reverse.dropWhile (· != c!"/")).reverse ++ ref

/-- a relative reference without authority -/
structure Ref where
  path : Str
  query : Option Str
  fragment : Option Str
  deriving DecidableEq

/-- 5.3, component recomposition -/
def Ref.text (r : Ref) : Str :=
  r.path ++ (match r.query with | some q => u!"?" ++ q | none => []) ++
    (match r.fragment with | some f => u!"#" ++ f | none => [])

/-- 5.2.2 for a reference without scheme and authority: the components of the target, where the base has the authority, path
and query given -/
def transform (authority : Bool) (path : Str) (query : Option Str) (r : Ref) : Ref :=
  if r.path = [] then
    { path := path, query := (match r.query with | some q => some q | none => query), fragment := r.fragment }
  else if u!"/" <+: r.path then { r with path := removeDotSegments r.path }
  else { r with path := removeDotSegments (merge authority path r.path) }

/-- UTF-8 percent-encode with the path percent-encode set -/
def pathEncode (s : Str) : Str := percentEncode (fun b => !pathSet b) false (utf8 s)

/-- The references that RFC 3986 and the URL standard split into the same components, where `special` says whether the base
has a special scheme. The URL standard strips the input and removes tabs and newlines, reads "\\" as "/" if the scheme is
special, and reads "%2e" as "." in dot segments. -/
structure Plain (special : Prop) (r : Ref) : Prop where
  str : IsStr r.text
  path : ∀ c ∈ r.path, c ≠ c!"?" ∧ c ≠ c!"#"
  query : ∀ q, r.query = some q → c!"#" ∉ q
  noScheme : ¬ HasScheme r.text
  noAuthority : ¬ u!"//" <+: r.path
  noBackslash : special → c!"\\" ∉ r.path
  noEncodedDot : ¬ u!"%2e" <:+: r.path ∧ ¬ u!"%2E" <:+: r.path
  noTab : ∀ c ∈ r.text, ¬ TabOrNewline c
  noSpace : ∀ c, r.text.head? = some c ∨ r.text.getLast? = some c → ¬ C0OrSpace c

/-- a Windows drive letter -/
def Drive (s : Str) : Prop := ∃ l, Letter l ∧ (s = [l, c!":"] ∨ s = [l, c!"|"])

/-- `s` is a segment of a path text -/
def SegmentIn (path s : Str) : Prop :=
  ∃ x y, path = x ++ s ++ y ∧ (x = [] ∨ x.getLast? = some c!"/") ∧ (y = [] ∨ y.head? = some c!"/")

-- the example of 5.2.4 and some of 5.4
example : removeDotSegments u!"/a/b/c/./../../g" = u!"/a/g" := by decide
example : removeDotSegments u!"mid/content=5/../6" = u!"mid/6" := by decide
example : (["g", "./g", "g/", "g;x=1/../y", "..", "../../../g", "/./g", "g/./h/", ";x", "g..", "..g"].map fun (r : String) =>
    ((transform true u!"/b/c/d;p" (some u!"q") ⟨r.toList.map Char.toNat, none, none⟩).path)) =
    ([u!"/b/c/g", u!"/b/c/g", u!"/b/c/g/", u!"/b/c/y", u!"/b/", u!"/g", u!"/g", u!"/b/c/g/h/", u!"/b/c/;x", u!"/b/c/g..",
      u!"/b/c/..g"] : List Str) := by decide +kernel

end Urlstd.Spec.Rfc
