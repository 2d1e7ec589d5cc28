/-
Resolving a reference without a parser: the reference is put behind a part of the base's text, and the whole is read without a base.
Which part this is depends on how the reference begins, as in RFC 3986, section 5.2.2; the parts are those of appendix B. There are no
records here, only texts.
-/
import Verif.Spec.Depend
import Verif.Spec.Generic

namespace Urlstd.Spec

open Rfc (Split)

/-- the scheme with its ":" -/
def schemePart (h : Split) : Str := h.scheme.elim [] (· ++ u!":")

/-- all in front of the path -/
def rootPart (h : Split) : Str := schemePart h ++ h.authority.elim [] (u!"//" ++ ·)

/-- the query with its "?" -/
def queryPart (h : Split) : Str := h.query.elim [] (u!"?" ++ ·)

/-- a path up to its last slash; a slash for an empty path -/
def directory (path : Str) : Str :=
  if path = [] then u!"/" else (path.reverse.dropWhile (· != c!"/")).reverse

/-- The reference is put behind this part of the text of a base whose scheme is not "file". -/
inductive Place (special : Bool) (h : Split) : (reference part : Str) → Prop
  /-- two slashes: behind the scheme -/
  | scheme {r : Str} (h2 : TwoSlashes special r) : Place special h r (schemePart h)
  /-- a slash: in front of the path -/
  | root {s : Nat} {r : Str} (hs : Slash special s) (hr : NoSlash special r) : Place special h (s :: r) (rootPart h)
  /-- another path: behind the last slash of the path -/
  | directory {r : Str} (hs : NoSlash special r) (hp : ¬ NoPath r) : Place special h r (rootPart h ++ directory h.path)
  /-- a query: behind the path -/
  | path (r : Str) : Place special h (c!"?" :: r) (rootPart h ++ h.path)
  /-- a fragment, or nothing: behind the query -/
  | query {r : Str} (hr : NoQuery r) : Place special h r (rootPart h ++ h.path ++ queryPart h)

/-- the path of a reference without scheme and authority -/
def refPath (r : Str) : Str := r.takeWhile fun c => c != c!"?" && c != c!"#"

/-- the path consists of a drive letter with ":" and what follows behind a slash -/
def OnDrive (path d rest : Str) : Prop :=
  isNormDrive d = true ∧ path = u!"/" ++ d ++ rest ∧ (rest = [] ∨ ∃ t, rest = c!"/" :: t)

/-- The reference is put behind this part of the text of a base whose scheme is "file": as above, but the drive letter stays unless the
reference has its own. The empty reference is missing (C36). -/
inductive FilePlace (h : Split) : (reference part : Str) → Prop
  | scheme {r : Str} (h2 : TwoSlashes true r) : FilePlace h r (schemePart h)
  | root {s : Nat} {r : Str} (hs : Slash true s) (hr : NoSlash true r) (hd : DriveFirst (refPath r) ∨ ∀ d rest, ¬ OnDrive h.path d rest) :
      FilePlace h (s :: r) (rootPart h)
  | drive {s : Nat} {r d rest : Str} (hs : Slash true s) (hr : NoSlash true r) (hn : ¬ DriveFirst (refPath r)) (hd : OnDrive h.path d rest) :
      FilePlace h (s :: r) (rootPart h ++ u!"/" ++ d)
  | directory {r : Str} (hs : NoSlash true r) (hp : ¬ NoPath r) (hn : ¬ DriveFirst (refPath r)) (hd : ∀ d, ¬ OnDrive h.path d []) :
      FilePlace h r (rootPart h ++ directory h.path)
  | onlyDrive {r d : Str} (hs : NoSlash true r) (hp : ¬ NoPath r) (hn : ¬ DriveFirst (refPath r)) (hd : OnDrive h.path d []) :
      FilePlace h r (rootPart h ++ h.path ++ u!"/")
  | ownDrive {r : Str} (hs : NoSlash true r) (hp : ¬ NoPath r) (hn : DriveFirst (refPath r)) : FilePlace h r (rootPart h ++ u!"/")
  | path (r : Str) : FilePlace h (c!"?" :: r) (rootPart h ++ h.path)
  | query {r : Str} (hr : NoQuery r) (hne : r ≠ []) : FilePlace h r (rootPart h ++ h.path ++ queryPart h)

end Urlstd.Spec
