/-
Specification for the ValueError of IPv6 parsing (C14): a dotted IPv4 address that is well formed so far
as single characters are concerned, with a part of more digits than `int` takes.
-/
import Verif.Py

namespace Urlstd.Spec

/-- A part of a dotted address: decimal digits, without a superfluous zero in front. -/
def DecPart (p : Str) : Prop :=
  p ≠ [] ∧ (∀ c ∈ p, 48 ≤ c ∧ c ≤ 57) ∧ (p = [48] ∨ p.head? ≠ some 48)

/-- Two to four parts, one of them of more than `limit` digits (no limit if it is zero). -/
def LongQuad (limit : Nat) (g : Str) : Prop :=
  ∃ parts : List Str, 2 ≤ parts.length ∧ parts.length ≤ 4 ∧ joinWith u!"." parts = g ∧
    (∀ p ∈ parts, DecPart p) ∧ limit ≠ 0 ∧ ∃ p ∈ parts, limit < p.length

/-- the end of a text at a colon, or the empty text -/
def EndsColon (x : Str) : Prop := x = [] ∨ x.getLast? = some 58

/-- the beginning of a text at a colon, or the empty text -/
def StartsColon (y : Str) : Prop := y = [] ∨ y.head? = some 58

end Urlstd.Spec
