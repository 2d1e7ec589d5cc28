/-
Python values and the built-ins the code relies on.

`Str` is a Python `str`: a list of code points (0..0x10FFFF, surrogates allowed).
`Bytes` is a Python `bytes`: a list of numbers 0..255.
-/
import Lean.Elab.Command

namespace Urlstd

open Lean in
/-- `u!"abc"` is the list of code points of a string literal. -/
macro:max "u!" s:str : term => do
  let cs ← s.getString.toList.toArray.mapM fun c => pure (Syntax.mkNumLit (toString c.toNat))
  `(([$cs,*] : List Nat))

open Lean in
/-- `c!"/"` is the code point of a one-character string literal. -/
macro:max "c!" s:str : term => do
  pure (Syntax.mkNumLit (toString (s.getString.toList.headD ' ').toNat))

/-- Python `str` as a list of code points. -/
abbrev Str := List Nat

/-- Python `bytes` as a list of byte values. -/
abbrev Bytes := List Nat

/-- Exception classes that can be raised by the modelled code.
`error.py:16-54` for the first five; the others are Python built-ins. -/
inductive Err where
  | urlParse        -- URLParseError(ValueError)             error.py:16
  | idna            -- IDNAError(URLParseError)              error.py:20
  | hostParse       -- HostParseError(URLParseError)         error.py:45
  | ipv4Parse       -- IPv4AddressParseError(HostParseError) error.py:49
  | ipv6Parse       -- IPv6AddressParseError(HostParseError) error.py:53
  | valueError      -- a ValueError that is not a URLParseError (integer digit limit)
  | assertionError
  | indexError
  | attributeError
  | typeError
  | notImplemented
  | outOfFuel       -- not a Python exception: the model's loop bound was hit (proved unreachable)
  deriving DecidableEq, Repr, Inhabited

/-- `isinstance(e, URLParseError)`; `error.py:16-54`. -/
def Err.isURLParseError : Err → Bool
  | .urlParse | .idna | .hostParse | .ipv4Parse | .ipv6Parse => true
  | _ => false

/-- Validation error types: the prefix of the messages given to `log.info`/`log.error`/
`ValidityState.prepend`, as extracted by `VALIDATION_ERROR_TYPE_RE` (parse.py:63, 3043-3051).
`undefined` stands for messages without such a prefix (parse.py:144). -/
inductive VErr where
  | undefined
  | domainToASCII | domainToUnicode | domainInvalidCodePoint | hostInvalidCodePoint
  | ipv4EmptyPart | ipv4TooManyParts | ipv4NonNumericPart | ipv4NonDecimalPart | ipv4OutOfRangePart
  | ipv6Unclosed | ipv6InvalidCompression | ipv6TooManyPieces | ipv6MultipleCompression
  | ipv6InvalidCodePoint | ipv6TooFewPieces
  | ipv4InIPv6TooManyPieces | ipv4InIPv6InvalidCodePoint | ipv4InIPv6OutOfRangePart
  | ipv4InIPv6TooFewParts
  | invalidURLUnit | specialSchemeMissingFollowingSolidus | missingSchemeNonRelativeURL
  | invalidReverseSolidus | invalidCredentials | hostMissing | portOutOfRange | portInvalid
  | fileInvalidWindowsDriveLetter | fileInvalidWindowsDriveLetterHost
  deriving DecidableEq, Repr, Inhabited

/-- One call of `ValidityState.prepend` (parse.py:3043-3051): either a complete record of a
validation error, or one that raised ValueError while formatting `msg % args` (the error type is
then already inserted, the description and the counter are not). -/
inductive LogEv where
  | ev (t : VErr)
  | broken (t : VErr)
  deriving DecidableEq, Repr, Inhabited

/-- The calls of `ValidityState.prepend` made by a function, newest first. -/
abbrev Log := List LogEv

/-- Result of a function that may raise and that reports validation errors. -/
structure Res (α : Type) where
  res : Except Err α
  log : Log

/-- return a value -/
def Res.ok {α : Type} (a : α) (log : Log := []) : Res α := ⟨.ok a, log⟩
/-- raise -/
def Res.err {α : Type} (e : Err) (log : Log := []) : Res α := ⟨.error e, log⟩

/-- Result of an ICU call (parse.py:1042-1061, 1121-1139): `icu.ICUError`, or the destination
string together with `info.get_errors()`. -/
inductive IcuOut where
  | failure
  | ok (dest : Str) (errors : Nat)
  deriving DecidableEq, Repr, Inhabited

/-- Everything outside `parse.py` that the code consults. -/
structure Env where
  /-- `icu.IDNA.create_uts46_instance(options).name_to_ascii`; the flag is `UIDNA_USE_STD3_RULES`
  (parse.py:1043-1059). -/
  nameToAscii : Bool → Str → IcuOut
  /-- `name_to_unicode` (parse.py:1122-1138). -/
  nameToUnicode : Bool → Str → IcuOut
  /-- `sys.get_int_max_str_digits()`; 0 means no limit. -/
  maxStrDigits : Nat
  /-- `Py_UNICODE_ISSPACE` above ASCII, used by `int()`. -/
  uniSpace : Nat → Bool
  /-- `Py_UNICODE_TODECIMAL` above ASCII, used by `int()`. -/
  uniDecimal : Nat → Option Nat
  /-- `str.lower` on strings that are not pure ASCII. -/
  uniLower : Str → Str
  /-- `REGISTERED_SCHEMES` (parse.py:146-153). -/
  registered : List Str
  /-- whether the caller passed `validity=` (parse.py:555-579: the message text is then built
  eagerly by `ValidityState.prepend`). -/
  validity : Bool

/-! ### Character classes (parse.py:65-111) -/

/-- `ASCII_ALPHA` (parse.py:67). -/
def isAlpha (c : Nat) : Bool := (65 ≤ c && c ≤ 90) || (97 ≤ c && c ≤ 122)
/-- `ASCII_DIGITS` (parse.py:71). -/
def isDigit (c : Nat) : Bool := 48 ≤ c && c ≤ 57
/-- `ASCII_ALPHANUMERIC` (parse.py:69). -/
def isAlnum (c : Nat) : Bool := isAlpha c || isDigit c
/-- `ASCII_HEX_DIGITS` (parse.py:73). -/
def isHex (c : Nat) : Bool := isDigit c || (65 ≤ c && c ≤ 70) || (97 ≤ c && c ≤ 102)
/-- `C0_CONTROL` (parse.py:65). -/
def isC0 (c : Nat) : Bool := c < 0x20
/-- the class `[\x00-\x1f\x20]` (parse.py:57-59). -/
def isC0OrSpace (c : Nat) : Bool := c ≤ 0x20
/-- the class `[\t\x0a\x0d]` (parse.py:55). -/
def isTabNewline (c : Nat) : Bool := c == 0x09 || c == 0x0A || c == 0x0D

/-- value of a hex digit -/
def hexVal (c : Nat) : Nat :=
  if isDigit c then c - 48 else if 65 ≤ c && c ≤ 70 then c - 55 else c - 87

/-- ASCII `str.lower` on one character. -/
def lowerC (c : Nat) : Nat := if 65 ≤ c && c ≤ 90 then c + 32 else c

/-- `str.lower` for ASCII strings (used on schemes, parse.py:3900). -/
def lower (s : Str) : Str := s.map lowerC

/-- `str.lower` for arbitrary strings (parse.py:2968). -/
def pyLower (env : Env) (s : Str) : Str := if s.all (· < 128) then lower s else env.uniLower s

/-! ### Strings -/

/-- `s.split(sep)` for a one-character separator: never empty. -/
def splitOn (sep : Nat) : Str → List Str
  | [] => [[]]
  | c :: cs =>
    if c = sep then [] :: splitOn sep cs
    else match splitOn sep cs with
      | [] => [[c]]
      | h :: t => (c :: h) :: t

/-- `s.split(sep, maxsplit=1) + [""])[:2]` as a pair (parse.py:260, 474). -/
def splitFirst (sep : Nat) : Str → Str × Str
  | [] => ([], [])
  | c :: cs => if c = sep then ([], cs) else ((c :: (splitFirst sep cs).1), (splitFirst sep cs).2)

/-- `s.find(c) != -1` together with the two sides (parse.py:3099-3104). -/
def splitAtFirst (sep : Nat) : Str → Option (Str × Str)
  | [] => none
  | c :: cs => if c = sep then some ([], cs) else (splitAtFirst sep cs).map fun p => (c :: p.1, p.2)

/-- `sep.join(parts)`. -/
def joinWith (sep : Str) : List Str → Str
  | [] => []
  | [p] => p
  | p :: q :: ps => p ++ sep ++ joinWith sep (q :: ps)

/-- strip characters of a class on both sides: `LEADING_AND_TRAILING_C0_CONTROL_OR_SPACE_RE.sub("", s)`
(parse.py:57-59, 4180). -/
def stripBoth (p : Nat → Bool) (s : Str) : Str := ((s.dropWhile p).reverse.dropWhile p).reverse

/-! ### Numbers to text -/

/-- digits of `n` in `base`, with fuel -/
def toDigitsAux (base : Nat) (digit : Nat → Nat) : Nat → Nat → Str
  | 0, n => [digit (n % base)]
  | fuel + 1, n =>
    if n < base then [digit n] else toDigitsAux base digit fuel (n / base) ++ [digit (n % base)]

/-- `str(n)` for a non-negative integer. -/
def natDec (n : Nat) : Str := toDigitsAux 10 (fun d => 48 + d) n n

/-- lower-case hex digit -/
def hexDigitLower (d : Nat) : Nat := if d < 10 then 48 + d else 87 + d
/-- upper-case hex digit -/
def hexDigitUpper (d : Nat) : Nat := if d < 10 then 48 + d else 55 + d

/-- `f"{n:x}"` for a non-negative integer. -/
def natHex (n : Nat) : Str := toDigitsAux 16 hexDigitLower n n

/-- whether `str(n)` raises ValueError because of the digit limit. -/
def strTooLong (env : Env) (n : Nat) : Bool :=
  decide (0 < env.maxStrDigits) && decide (env.maxStrDigits < (natDec n).length)

/-! ### Text to numbers: CPython's `int(text, base)` -/

/-- `_PyUnicode_TransformDecimalAndSpaceToASCII`: identity on ASCII text, otherwise Unicode spaces
become ' ', Unicode decimals become digits, and the first other non-ASCII character cuts
the text with '?'. -/
def intTransform (env : Env) (s : Str) : Str :=
  if s.all (· < 128) then s else go s
where
  go : Str → Str
    | [] => []
    | c :: cs =>
      if c < 127 then c :: go cs
      else if env.uniSpace c then 0x20 :: go cs
      else match env.uniDecimal c with
        | some d => (48 + d) :: go cs
        | none => [c!"?"]

/-- `Py_ISSPACE`. -/
def isPySpace (c : Nat) : Bool := (9 ≤ c && c ≤ 13) || c == 32

/-- value of a character as a digit (`_PyLong_DigitValue`), 37 if it is none -/
def digitValue (c : Nat) : Nat :=
  if isDigit c then c - 48
  else if 65 ≤ c && c ≤ 90 then c - 55
  else if 97 ≤ c && c ≤ 122 then c - 87
  else 37

/-- digits with single underscores between them; returns (value, number of digits) and the rest.
`prevUnderscore` and `any` track the syntax; `none` = syntax error. -/
def scanDigits (base : Nat) : Str → (prevUs : Bool) → (acc digits : Nat) → Option (Nat × Nat × Str)
  | [], prevUs, acc, digits => if prevUs || digits == 0 then none else some (acc, digits, [])
  | c :: cs, prevUs, acc, digits =>
    if c = c!"_" then
      if prevUs || digits == 0 then none else scanDigits base cs true acc digits
    else if digitValue c < base then scanDigits base cs false (acc * base + digitValue c) (digits + 1)
    else if prevUs || digits == 0 then none else some (acc, digits, c :: cs)

/-- the optional radix prefix accepted by `PyLong_FromString` for an explicit base 16 or 8,
with one underscore allowed behind it -/
def dropRadixPrefix (base : Nat) : Str → Str
  | 48 :: x :: cs =>
    if (base == 16 && (x == c!"x" || x == c!"X")) || (base == 8 && (x == c!"o" || x == c!"O")) then
      match cs with
      | 95 :: cs' => cs'
      | _ => cs
    else 48 :: x :: cs
  | s => s

/-- an optional sign: (negative, rest) -/
def splitSign : Str → Bool × Str
  | 43 :: t => (false, t)      -- '+'
  | 45 :: t => (true, t)       -- '-'
  | t => (false, t)

/-- sign and magnitude of `int(text, base)`; `none` = ValueError. Bases used: 8, 10, 16. -/
def pyInt (env : Env) (base : Nat) (text : Str) : Option Int :=
  let s := (intTransform env text).dropWhile isPySpace
  let (neg, s) := splitSign s
  match scanDigits base (dropRadixPrefix base s) false 0 0 with
  | none => none
  | some (v, digits, rest) =>
    if !(rest.dropWhile isPySpace).isEmpty then none
    -- the digit limit applies to bases that are not powers of two
    else if base == 10 && decide (0 < env.maxStrDigits) && decide (env.maxStrDigits < digits) then none
    else some (if neg then -(Int.ofNat v) else Int.ofNat v)

end Urlstd
