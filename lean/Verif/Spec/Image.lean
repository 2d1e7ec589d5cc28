/-
Which records are URLs: conditions on the components, one by one and together. Property C113 proves that the parser returns exactly
these.
-/
import Verif.Spec.Machine
import Verif.Spec.Url

namespace Urlstd.Spec

/-- Conditions on the components that hold of every URL. A host is one that the host parser gives back when it reads what is written
for it. -/
structure WellMade (env : Env) (u : Rec) : Prop where
  scheme : NormScheme u.scheme
  username : ∀ c ∈ u.username, userinfoSet c = false
  password : ∀ c ∈ u.password, userinfoSet c = false
  host : ∀ h, u.host = some h → IsStr (hostSerialize h) ∧ (hostParse env (hostSerialize h) (!isSpecial u.scheme)).res = .ok h
  port : PortOK u
  special : SpecialHasHost u
  /-- a list path: not empty without a host, no dot segments, everything encoded, no slash within a segment -/
  segments : ∀ l, u.path = .list l → (u.host = none → l ≠ []) ∧
    ∀ s ∈ l, ¬ DotSegment s ∧ ∀ c ∈ s, pathSet c = false ∧ c ≠ c!"/" ∧ (isSpecial u.scheme = true → c ≠ c!"\\")
  /-- an opaque path: no host, no slash at the front, no space at the end of the URL -/
  opaquePath : ∀ s, u.path = .opaque s → u.host = none ∧ s.head? ≠ some c!"/" ∧
    (∀ c ∈ s, c0Set c = false ∧ c ≠ c!"?" ∧ c ≠ c!"#") ∧ (u.query = none → u.fragment = none → s.getLast? ≠ some c!" ")
  query : ∀ q, u.query = some q → ∀ c ∈ q, (if isSpecial u.scheme then specialQuerySet c else querySet c) = false
  fragment : ∀ f, u.fragment = some f → ∀ c ∈ f, fragmentSet c = false

/-- The components form a URL of the parser: conditions on several components are added. -/
structure IsURL (env : Env) (u : Rec) : Prop extends WellMade env u where
  bare : BareWithoutHost u
  /-- "localhost" is no host of a "file" URL -/
  localhost : u.scheme = u!"file" → u.host ≠ some (.str u!"localhost")
  /-- a drive letter is followed by ":" -/
  drive : u.scheme = u!"file" → ∀ c l, ((c!"A" ≤ c ∧ c ≤ c!"Z") ∨ (c!"a" ≤ c ∧ c ≤ c!"z")) → u.path ≠ .list ([c, c!"|"] :: l)

end Urlstd.Spec
