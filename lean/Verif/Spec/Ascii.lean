/-
Characters and numerals of ASCII, apart from those of the model.
-/
import Verif.Py

namespace Urlstd.Spec

/-- https://infra.spec.whatwg.org/#ascii-digit -/
def isDigit (c : Nat) : Bool := c!"0" ≤ c && c ≤ c!"9"

/-- https://infra.spec.whatwg.org/#ascii-hex-digit -/
def isHex (c : Nat) : Bool := isDigit c || (c!"A" ≤ c && c ≤ c!"F") || (c!"a" ≤ c && c ≤ c!"f")

/-- https://infra.spec.whatwg.org/#ascii-alphanumeric -/
def isAlnum (c : Nat) : Bool := ((c!"A" ≤ c && c ≤ c!"Z") || (c!"a" ≤ c && c ≤ c!"z")) || isDigit c

/-- the value of a hex digit -/
def hexVal (c : Nat) : Nat :=
  if isDigit c then c - c!"0" else if c!"A" ≤ c && c ≤ c!"F" then c - 55 else c - 87

/-- ASCII white space of Python's `int()`: tab, line feed, vertical tab, form feed, carriage return, space -/
def isPySpace (c : Nat) : Bool := (9 ≤ c && c ≤ 13) || c == c!" "

/-- the shortest decimal text, by repeated division -/
def decText (n : Nat) : Str :=
  if _h : n < 10 then [c!"0" + n] else decText (n / 10) ++ [c!"0" + n % 10]
termination_by n

end Urlstd.Spec
