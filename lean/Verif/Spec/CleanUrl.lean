/-
The URLs that are written without a validation error, for property C99.
-/
import Verif.Record
import Verif.Spec.Writing

namespace Urlstd.Spec

/-- URL code points and percent-encoded bytes -/
abbrev Units (s : Str) : Prop := URLUnits (fun _ => False) s

/-- No credentials; the path, the query and the fragment consist of URL units, and so does the host of a URL whose scheme is not
special, unless it is an IPv6 address. -/
structure CleanUrl (u : Rec) : Prop where
  username : u.username = []
  password : u.password = []
  host : ∀ d, u.host = some (.str d) → isSpecial u.scheme = false → Units d
  segments : ∀ l, u.path = .list l → ∀ p ∈ l, Units p
  text : ∀ t, u.path = .opaque t → Units t
  query : ∀ q, u.query = some q → Units q
  fragment : ∀ f, u.fragment = some f → Units f

end Urlstd.Spec
