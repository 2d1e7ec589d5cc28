/-
What a reference takes from its base.
-/
import Verif.Spec.Denote

namespace Urlstd.Spec

/-- The text `t` is the reference `r` to the base: without a scheme, or behind the special scheme of the base. -/
def RefersTo (b : Rec) (t r : Str) : Prop :=
  (¬ HasScheme t ∧ r = t) ∨
  (isSpecial b.scheme = true ∧ ∃ sc, SchemeText sc ∧ toLower sc = b.scheme ∧ t = sc ++ u!":" ++ r)

/-- two slashes at the front -/
def TwoSlashes (special : Bool) (r : Str) : Prop := ∃ s1 s2 t, r = s1 :: s2 :: t ∧ Slash special s1 ∧ Slash special s2

/-- no path, i.e. a query, a fragment or nothing -/
def NoPath (r : Str) : Prop := ∀ c, r.head? = some c → c = c!"?" ∨ c = c!"#"

/-- neither path nor query -/
def NoQuery (r : Str) : Prop := ∀ c, r.head? = some c → c = c!"#"

/-- the drive letter of a file URL -/
def driveOf (b : Rec) : Option Str :=
  match b.path with
  | .list (p :: _) => if b.scheme = u!"file" ∧ isNormDrive p = true then some p else none
  | _ => none

/-- The two bases have in common what the reference takes from its base. -/
structure Common (b b' : Rec) (r : Str) : Prop where
  /-- credentials, host, port, of a file URL host and drive letter: unless it begins with two slashes -/
  authority : isOpaque b = false → ¬ TwoSlashes (isSpecial b.scheme) r →
    (b.scheme ≠ u!"file" → SameAuthority b b') ∧ (b.scheme = u!"file" → b.host = b'.host ∧ driveOf b = driveOf b')
  /-- the path up to the last slash: unless it begins with a slash -/
  directory : NoSlash (isSpecial b.scheme) r → ∀ p p', b.path = .list p → b'.path = .list p' →
    parent (isFile b.scheme) p = parent (isFile b.scheme) p'
  /-- the whole path: only if it has no path -/
  path : NoPath r → b.path = b'.path
  /-- the query: only if it has neither path nor query -/
  query : NoQuery r → b.query = b'.query

/-- What a URL is as a base: without fragment; there is no more to a file URL than host, path and query, and no more to a URL with an
opaque path than path and query. -/
def asBase (b : Rec) : Rec :=
  if isOpaque b = true then { scheme := b.scheme, path := b.path, query := b.query }
  else if b.scheme = u!"file" then { scheme := b.scheme, host := b.host, path := b.path, query := b.query }
  else { b with fragment := none }

end Urlstd.Spec
