/-
URL writing: the valid URL strings of the URL Standard (July 2023).
https://url.spec.whatwg.org/#url-writing

The valid host strings of special URLs are a parameter, because they depend on the IDNA library, and so are the valid
opaque-host strings, for which `OpaqueHostString` is the standard's definition. Nothing here refers to the model's parser.
-/
import Verif.Spec.Reports

namespace Urlstd.Spec

/-- https://url.spec.whatwg.org/#url-units without the excluded code points: URL code points and percent-encoded bytes -/
inductive URLUnits (excluded : Nat → Prop) : Str → Prop
  | nil : URLUnits excluded []
  | point {c : Nat} {s : Str} (hc : URLCodePoint c) (hx : ¬ excluded c) (hs : URLUnits excluded s) : URLUnits excluded (c :: s)
  | byte {a b : Nat} {s : Str} (ha : isHex a = true) (hb : isHex b = true) (hs : URLUnits excluded s) :
      URLUnits excluded (c!"%" :: a :: b :: s)

/-- https://url.spec.whatwg.org/#url-path-segment-string -/
def PathSegment (s : Str) : Prop := URLUnits (fun c => c = c!"/" ∨ c = c!"?") s

/-- segments separated from each other by "/" -/
def joinSlash : List Str → Str
  | [] => []
  | [p] => p
  | p :: ps => p ++ c!"/" :: joinSlash ps

/-- https://url.spec.whatwg.org/#path-relative-url-string -/
def PathRelative (s : Str) : Prop :=
  (∃ ps : List Str, (∀ p ∈ ps, PathSegment p) ∧ s = joinSlash ps) ∧ s.head? ≠ some c!"/"

/-- https://url.spec.whatwg.org/#path-absolute-url-string -/
def PathAbsolute (s : Str) : Prop := ∃ p, s = c!"/" :: p ∧ PathRelative p

/-- https://url.spec.whatwg.org/#path-relative-scheme-less-url-string -/
def PathRelativeSchemeless (s : Str) : Prop := PathRelative s ∧ ¬ HasScheme s

/-- https://url.spec.whatwg.org/#path-absolute-non-windows-file-url-string -/
def PathAbsoluteNonWindows (s : Str) : Prop :=
  PathAbsolute s ∧ ∀ a b t, s = c!"/" :: a :: b :: c!"/" :: t → ¬ (Letter a ∧ (b = c!":" ∨ b = c!"|"))

/-- https://url.spec.whatwg.org/#url-port-string -/
def PortString (s : Str) : Prop := (∀ c ∈ s, Digit c) ∧ decimal s ≤ 65535

/-- "optionally followed by ":" and a URL-port string" -/
def PortPart (s : Str) : Prop := s = [] ∨ ∃ p, s = c!":" :: p ∧ PortString p

/-- "optionally followed by a path-absolute-URL string" -/
def PathPart (s : Str) : Prop := s = [] ∨ PathAbsolute s

/-- https://url.spec.whatwg.org/#scheme-relative-special-url-string -/
def SchemeRelativeSpecial (validHost : Str → Prop) (s : Str) : Prop :=
  ∃ host port path, s = u!"//" ++ host ++ port ++ path ∧ validHost host ∧ PortPart port ∧ PathPart path

/-- the text between the brackets of an IPv6 address -/
def IPv6Text (a : Str) : Prop := (∀ c ∈ a, isHex c = true ∨ c = c!":" ∨ c = c!".") ∧ (ipv6Parse a).isSome = true

/-- https://url.spec.whatwg.org/#valid-opaque-host-string -/
def OpaqueHostString (s : Str) : Prop :=
  (s ≠ [] ∧ URLUnits ForbiddenHostCP s) ∨ ∃ a, s = u!"[" ++ a ++ u!"]" ∧ IPv6Text a

/-- https://url.spec.whatwg.org/#opaque-host-and-port-string -/
def OpaqueHostAndPort (validOpaque : Str → Prop) (s : Str) : Prop :=
  s = [] ∨ ∃ host port, s = host ++ port ∧ validOpaque host ∧ PortPart port

/-- https://url.spec.whatwg.org/#scheme-relative-url-string -/
def SchemeRelative (validOpaque : Str → Prop) (s : Str) : Prop :=
  ∃ hp path, s = u!"//" ++ hp ++ path ∧ OpaqueHostAndPort validOpaque hp ∧ PathPart path

/-- https://url.spec.whatwg.org/#scheme-relative-file-url-string -/
def SchemeRelativeFile (validHost : Str → Prop) (s : Str) : Prop :=
  (∃ host path, s = u!"//" ++ host ++ path ∧ validHost host ∧ (path = [] ∨ PathAbsoluteNonWindows path)) ∨
    ∃ path, s = u!"//" ++ path ∧ PathAbsolute path

/-- https://url.spec.whatwg.org/#relative-url-string, where the base URL has a scheme that is not special; without its
query -/
def RelativeOther (validOpaque : Str → Prop) (s : Str) : Prop :=
  SchemeRelative validOpaque s ∨ PathAbsolute s ∨ PathRelativeSchemeless s

/-- https://url.spec.whatwg.org/#relative-url-string, without its query -/
def RelativeURL (validHost validOpaque : Str → Prop) (base : Rec) (s : Str) : Prop :=
  if base.scheme = u!"file" then
    SchemeRelativeFile validHost s ∨ (base.host = some (.str []) ∧ PathAbsolute s) ∨
      (base.host ≠ some (.str []) ∧ PathAbsoluteNonWindows s) ∨ PathRelativeSchemeless s
  else if isSpecial base.scheme then
    SchemeRelativeSpecial validHost s ∨ PathAbsolute s ∨ PathRelativeSchemeless s
  else RelativeOther validOpaque s

/-- https://url.spec.whatwg.org/#absolute-url-string, without its query; `scheme` is its scheme in lower case -/
def AbsoluteURL (validHost validOpaque : Str → Prop) (scheme s : Str) : Prop :=
  ∃ sc rest, SchemeText sc ∧ scheme = toLower sc ∧ s = sc ++ c!":" :: rest ∧
    (if scheme = u!"file" then SchemeRelativeFile validHost rest
      else if isSpecial scheme then SchemeRelativeSpecial validHost rest
      else RelativeOther validOpaque rest)

/-- "optionally followed by "?" and a URL-query string" -/
def QueryPart (s : Str) : Prop := s = [] ∨ ∃ q, s = c!"?" :: q ∧ URLUnits (fun _ => False) q

/-- "optionally followed by "#" and a URL-fragment string" -/
def FragmentPart (s : Str) : Prop := s = [] ∨ ∃ f, s = c!"#" :: f ∧ URLUnits (fun _ => False) f

/-- https://url.spec.whatwg.org/#valid-url-string, parsed with the base URL `base`; `scheme` is the scheme that the URL
gets -/
def ValidURL (validHost validOpaque : Str → Prop) (base : Option Rec) (scheme s : Str) : Prop :=
  ∃ front q f, s = front ++ q ++ f ∧ QueryPart q ∧ FragmentPart f ∧
    (AbsoluteURL validHost validOpaque scheme front ∨
      ∃ b, base = some b ∧ scheme = b.scheme ∧ RelativeURL validHost validOpaque b front)

end Urlstd.Spec
