/-
What Python's `int(text, R)` reads, as a grammar with values, and what this makes of IPv4 addresses.
https://docs.python.org/3/library/functions.html#int
https://docs.python.org/3/reference/lexical_analysis.html#integer-literals
-/
import Verif.Spec.Host

namespace Urlstd.Spec

/-- Outside of ASCII, a space counts as " " and a decimal digit of any script as that digit; other characters have no place in a
number. -/
def plainChar (env : Env) (c : Nat) : Option Nat :=
  if c < 128 then some c else if env.uniSpace c then some c!" " else (env.uniDecimal c).map (c!"0" + ·)

/-- the text in ASCII, if it has no other characters -/
def plainText (env : Env) : Str → Option Str
  | [] => some []
  | c :: cs => match plainChar env c, plainText env cs with
    | some d, some ds => some (d :: ds)
    | _, _ => none

/-- `int(text, R)` returns `v`: the text consists of white space, a sign, a radix prefix, groups of digits separated by single
underscores, and white space; a decimal number has no more digits than CPython's limit. -/
def PyInt (env : Env) (R : Nat) (text : Str) (v : Int) : Prop :=
  ∃ (l sign pre : Str) (groups : List Str) (r : Str) (m : Nat),
    plainText env text = some (l ++ (sign ++ (pre ++ ([c!"_"].intercalate groups ++ r)))) ∧
    (∀ c ∈ l, isPySpace c = true) ∧ (∀ c ∈ r, isPySpace c = true) ∧
    sign ∈ [[], u!"+", u!"-"] ∧ pre ∈ pyRadixPrefixes R ∧ groups ≠ [] ∧ (∀ g ∈ groups, g ≠ []) ∧
    radixValue R 0 groups.flatten = some m ∧ v = (if sign = u!"-" then -(m : Int) else m) ∧
    (R = 10 → env.maxStrDigits = 0 ∨ groups.flatten.length ≤ env.maxStrDigits)

/-- DEL is neither a space nor a digit in Unicode -/
def DelOK (env : Env) : Prop := env.uniSpace 127 = false ∧ env.uniDecimal 127 = none

/-- A part of a host is read as the number `v`: in base 16 behind "0x" (which alone is 0), in base 8 behind "0", in base 10
otherwise. -/
def PartReads (env : Env) (part : Str) (v : Nat) : Prop :=
  ((partRadix part).1 = 16 ∧ (partRadix part).2 = [] ∧ v = 0) ∨ PyInt env (partRadix part).1 (partRadix part).2 v

/-- The parts of a text are read as these numbers. -/
inductive PartsRead (env : Env) : List Str → List Nat → Prop
  | nil : PartsRead env [] []
  | cons {p : Str} {v : Nat} {ps : List Str} {vs : List Nat} (h : PartReads env p v) (hs : PartsRead env ps vs) :
      PartsRead env (p :: ps) (v :: vs)

/-- CPython cannot write the number in decimal because of its limit -/
def TooLong (env : Env) (v : Nat) : Prop := env.maxStrDigits ≠ 0 ∧ 10 ^ env.maxStrDigits ≤ v

/-- The last part counts as a number: it consists of digits, or is read as one. -/
def EndsInNumber (env : Env) (s : Str) : Prop :=
  ∃ last, (ipv4Parts s).getLast? = some last ∧ ((last ≠ [] ∧ ∀ c ∈ last, isDigit c = true) ∨ ∃ v, PartReads env last v)

/-- The numbers make an address: no number but the last is above 255, unless the last is, too; and the last fits into the bytes
that are left. (The standard wants all but the last to be at most 255.) -/
def Fits (vs : List Nat) : Prop :=
  (vs.getLastD 0 ≤ 255 → ∀ v ∈ vs.dropLast, v ≤ 255) ∧ vs.getLastD 0 < 256 ^ (5 - vs.length)

/-- While it writes the numbers into a description of an error, the code meets one that is too long to be written: if errors are
recorded, for any number above 255; otherwise when the numbers do not fit. -/
def Raises (env : Env) (vs : List Nat) : Prop :=
  (∃ v ∈ vs, TooLong env v) ∧ ((env.validity = true ∧ ∃ v ∈ vs, 255 < v) ∨ ¬ Fits vs)

/-- The text is read as the address `n`. -/
def Address (env : Env) (s : Str) (n : Nat) : Prop :=
  (ipv4Parts s).length ≤ 4 ∧ ∃ vs, PartsRead env (ipv4Parts s) vs ∧ Fits vs ∧ ¬ Raises env vs ∧ n = ipv4Combine vs

end Urlstd.Spec
