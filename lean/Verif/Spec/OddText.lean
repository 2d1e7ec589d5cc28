/-
The texts without a validation error (`Spec/ErrorFree.lean`) that are no valid URL strings (`Spec/Writing.lean`).

The grammar of valid URL strings has five restrictions on paths that the parser does not report. This file lists what they
exclude. Nothing here refers to the model's parser.
-/
import Verif.Spec.ErrorFree

namespace Urlstd.Spec

/-- a host that the parser takes without a validation error, written as one: not empty, and nothing in it ends a host -/
def SilentHost (host : Bool → Str → Prop) (special : Bool) (h : Str) : Prop :=
  h ≠ [] ∧ host special h ∧ ∀ c ∈ h, c ∉ u!"/?#"

/-- "/", a letter, ":" or "|", and "/" -/
def DrivePath (t : Str) : Prop := ∃ a b r, t = c!"/" :: a :: b :: c!"/" :: r ∧ Letter a ∧ (b = c!":" ∨ b = c!"|")

/-- "//", an authority and "//": the path begins with an empty segment -/
def EmptyFirst (t : Str) : Prop := ∃ a r, t = u!"//" ++ (a ++ (u!"//" ++ r)) ∧ ∀ c ∈ a, c ∉ u!"/?#"

/-- "//", a host and a path that begins with a drive letter -/
def DriveOnHost (t : Str) : Prop := ∃ a r, t = u!"//" ++ (a ++ r) ∧ a ≠ [] ∧ (∀ c ∈ a, c ∉ u!"/?#") ∧ DrivePath r

/-- "//" without a host and without a path -/
def NothingBehind (t : Str) : Prop := ∃ r, t = u!"//" ++ r ∧ ∀ c, r.head? = some c → c = c!"?" ∨ c = c!"#"

/-- what follows "scheme:" in a text that is no valid URL string -/
def OddAbsolute (scheme t : Str) : Prop :=
  EmptyFirst t ∨ (scheme = u!"file" ∧ (DriveOnHost t ∨ NothingBehind t)) ∨ HasScheme t

/-- a reference to the base `b` that is no valid URL string -/
def OddRelative (b : Rec) (t : Str) : Prop :=
  EmptyFirst t ∨ (b.scheme = u!"file" ∧ (DriveOnHost t ∨ NothingBehind t ∨ (b.host ≠ some (.str []) ∧ DrivePath t)))

/-- The texts without a validation error that are no valid URL strings: the path behind an authority begins with an empty
segment; the path of a file URL with a host begins with a drive letter; a file URL has neither host nor path; a path that
has no "/" in front of it, behind the scheme of the text, begins with a scheme itself. -/
def OddText (base : Option Rec) (s : Str) : Prop :=
  (∃ sc rest, SchemeText sc ∧ s = sc ++ c!":" :: rest ∧ OddAbsolute (toLower sc) rest) ∨
    (¬ HasScheme s ∧ ∃ b, base = some b ∧ OddRelative b s)

end Urlstd.Spec
