/-
The parts of a text that is assigned to `host`: a host and what follows it.
-/
import Verif.Spec.Anatomy

namespace Urlstd.Spec

/-- a text that can stand for a host: nothing in it ends an authority, and every colon is in brackets -/
structure HostPart (special : Bool) (b : Str) : Prop where
  inside : ∀ c ∈ b, ¬ AuthorityEnd special c
  colon : ∀ x y, b = x ++ u!":" ++ y → InBrackets x

/-- a text behind which a colon begins the port -/
def Closed (b : Str) : Prop := ¬ InBrackets b

/-- there is something besides tabs and newlines -/
def Visible (b : Str) : Prop := ∃ c ∈ b, ¬ TabOrNewline c

/-- an assignment that may raise, and another one unless it does -/
def thenDo (x : Except Err Unit × URLObj) (f : URLObj → Except Err Unit × URLObj) : Except Err Unit × URLObj :=
  match x.1 with
  | .ok _ => f x.2
  | .error e => (.error e, x.2)

end Urlstd.Spec
