/-
When tabs and newlines in an assigned text matter. Property C93 proves that this is exactly when they do.
-/
import Verif.Spec.Assign

namespace Urlstd.Spec

/-- the same assignment of the text without tabs and newlines -/
def withoutTabs : Op → Op
  | .href v => .href (dropTabs v)
  | .protocol v => .protocol (dropTabs v)
  | .username v => .username (dropTabs v)
  | .password v => .password (dropTabs v)
  | .host v => .host (dropTabs v)
  | .hostname v => .hostname (dropTabs v)
  | .port v => .port (dropTabs v)
  | .pathname v => .pathname (dropTabs v)
  | .search v => .search (dropTabs v)
  | .hash v => .hash (dropTabs v)
  | op => op

/-- The text begins with a tab or newline, and the first other character is the mark `c`, or there is none. -/
def MarkBehindTab (c : Nat) (v : Str) : Prop := ∃ d t, v = d :: t ∧ TabOrNewline d ∧ ∀ x, (dropTabs t).head? = some x → x = c

/-- tabs and newlines in the assigned text matter -/
def TabsMatter (u : Rec) : Op → Prop
  | .username v | .password v => (∃ c ∈ v, TabOrNewline c) ∧ ¬ CannotHaveUPP u
  | .port v => v ≠ [] ∧ dropTabs v = [] ∧ u.port ≠ none ∧ ¬ CannotHaveUPP u
  | .search v => MarkBehindTab c!"?" v
  | .hash v => MarkBehindTab c!"#" v
  | _ => False

end Urlstd.Spec
