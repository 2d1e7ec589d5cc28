/-
The URL Standard's host algorithms, written from the standard's text and independently of the model.
https://url.spec.whatwg.org/#host-parsing
-/
import Verif.Spec.Text

namespace Urlstd.Spec

/-! ### IPv4 -/

/-- strictly split on a code point; `acc` is the piece being read -/
def strictlySplit (sep : Nat) (acc : Str) : Str → List Str
  | [] => [acc]
  | c :: cs => if c = sep then acc :: strictlySplit sep [] cs else strictlySplit sep (acc ++ [c]) cs

/-- value of a radix-R digit -/
def radixDigit (R c : Nat) : Option Nat :=
  let v := if c!"0" ≤ c ∧ c ≤ c!"9" then some (c - c!"0")
    else if c!"a" ≤ c ∧ c ≤ c!"f" then some (c - c!"a" + 10)
    else if c!"A" ≤ c ∧ c ≤ c!"F" then some (c - c!"A" + 10)
    else none
  v.filter (· < R)

/-- mathematical integer value of a radix-R numeral, `none` if some code point is not a digit -/
def radixValue (R : Nat) (acc : Nat) : Str → Option Nat
  | [] => some acc
  | c :: cs => match radixDigit R c with
    | some d => radixValue R (acc * R + d) cs
    | none => none

/-- https://url.spec.whatwg.org/#ipv4-number-parser (without the validation error flag) -/
def ipv4Number (input : Str) : Option Nat :=
  match input with
  | [] => none
  | 48 :: c :: rest =>
    if c = c!"x" ∨ c = c!"X" then radixValue 16 0 rest else radixValue 8 0 (c :: rest)
  | _ => radixValue 10 0 input

/-- all code points are radix-R digits -/
def RadixText (R : Nat) (t : Str) : Prop := ∀ c ∈ t, (radixDigit R c).isSome = true

/-- The prefixes that Python's `int(text, R)` skips: "0x" for R = 16 and "0o" for R = 8, in either case, with an
optional underscore. -/
def pyRadixPrefixes (R : Nat) : List Str :=
  if R = 16 then [[], u!"0x", u!"0X", u!"0x_", u!"0X_"]
  else if R = 8 then [[], u!"0o", u!"0O", u!"0o_", u!"0O_"]
  else [[]]

/-- The numerals of Python's `int(text, R)`: white space, a sign, a radix prefix, groups of digits separated by single
underscores, white space.
https://docs.python.org/3/library/functions.html#int -/
def PyNumeral (R : Nat) (t : Str) : Prop :=
  ∃ (l sign pre : Str) (groups : List Str) (r : Str),
    t = l ++ (sign ++ (pre ++ ([c!"_"].intercalate groups ++ r))) ∧
    (∀ c ∈ l, isPySpace c = true) ∧ (∀ c ∈ r, isPySpace c = true) ∧
    sign ∈ [[], u!"+", u!"-"] ∧ pre ∈ pyRadixPrefixes R ∧
    groups ≠ [] ∧ ∀ g ∈ groups, g ≠ [] ∧ RadixText R g

/-- the radix of a part of an IPv4 address and the text behind its prefix -/
def partRadix (part : Str) : Nat × Str :=
  match part with
  | 48 :: c :: rest => if c = c!"x" ∨ c = c!"X" then (16, rest) else (8, c :: rest)
  | _ => (10, part)

/-- An ASCII part of a host on which the numerals of Python and of the standard do not differ: if Python reads its text
as a number, then the text consists of digits. -/
def StrictPart (part : Str) : Prop :=
  (∀ c ∈ part, c < 128) ∧
  (PyNumeral (partRadix part).1 (partRadix part).2 → RadixText (partRadix part).1 (partRadix part).2)

/-- the parts of a host, without the empty part behind a trailing dot -/
def ipv4Parts (input : Str) : List Str :=
  let parts := strictlySplit c!"." [] input
  if parts.getLast? = some [] ∧ parts.length > 1 then parts.dropLast else parts

/-- https://url.spec.whatwg.org/#ends-in-a-number-checker -/
def endsInANumber (input : Str) : Bool :=
  match (ipv4Parts input).getLast? with
  | none => false
  | some last => (last ≠ [] ∧ ∀ c ∈ last, isDigit c = true) ∨ (ipv4Number last).isSome

/-- the numbers put together -/
def ipv4Combine : List Nat → Nat
  | [a] => a
  | [a, b] => a * 2 ^ 24 + b
  | [a, b, c] => a * 2 ^ 24 + b * 2 ^ 16 + c
  | [a, b, c, d] => a * 2 ^ 24 + b * 2 ^ 16 + c * 2 ^ 8 + d
  | _ => 0

/-- https://url.spec.whatwg.org/#concept-ipv4-parser -/
def ipv4Parse (input : Str) : Option Nat :=
  let parts := ipv4Parts input
  if parts.length > 4 then none
  else match parts.mapM ipv4Number with
    | none => none
    | some numbers =>
      if numbers.dropLast.any (· > 255) then none
      else if numbers.getLastD 0 ≥ 256 ^ (5 - numbers.length) then none
      else some (ipv4Combine numbers)

/-- dotted-decimal form of a 32-bit number -/
def dotted (n : Nat) : Str :=
  decText (n / 2 ^ 24) ++ u!"." ++ decText (n / 2 ^ 16 % 256) ++ u!"." ++ decText (n / 2 ^ 8 % 256) ++
    u!"." ++ decText (n % 256)

/-! ### IPv6 parser: https://url.spec.whatwg.org/#concept-ipv6-parser -/

/-- step 6.3-6.4: up to `k` more hex digits; returns value, number of digits read, rest -/
def v6Hex : (k value length : Nat) → Str → Nat × Nat × Str
  | k + 1, value, length, c :: cs =>
    if isHex c then v6Hex k (value * 16 + hexVal c) (length + 1) cs else (value, length, c :: cs)
  | _, value, length, s => (value, length, s)

/-- step 6.5.5.4.2-3: ipv4Piece with one more digit; `none` is failure -/
def v4Step (value : Option Nat) (d : Nat) : Option Nat :=
  match value with
  | none => some d
  | some v => if v = 0 then none else some (v * 10 + d)

/-- step 6.5.5.4: the digits of one IPv4 number, `value` is ipv4Piece -/
def v4Digits (value : Option Nat) : Str → Option (Option Nat × Str)
  | [] => some (value, [])
  | c :: cs =>
    if isDigit c then
      match v4Step value (c - c!"0") with
      | none => none
      | some v => if v > 255 then none else v4Digits (some v) cs
    else some (value, c :: cs)

/-- step 6.5.5 with `k = 4 - numbersSeen`: the address and pieceIndex after the loop -/
def v4Loop : (k : Nat) → (addr : List Nat) → (pieceIndex : Nat) → Str → Option (List Nat × Nat)
  | 0, addr, pieceIndex, s => if s = [] then some (addr, pieceIndex) else none
  | k + 1, addr, pieceIndex, s =>
    -- step 6.5.5.2: a dot before every number but the first
    let s' : Option Str := if k + 1 = 4 then some s else match s with
      | 46 :: t => some t
      | _ => none
    match s' with
    | none => none
    | some [] => none
    | some (c :: t) =>
      if isDigit c then
        match v4Digits none (c :: t) with
        | some (some v, rest) =>
          let addr := addr.set pieceIndex (addr.getD pieceIndex 0 * 0x100 + v)
          v4Loop k addr (if k = 2 ∨ k = 0 then pieceIndex + 1 else pieceIndex) rest
        | _ => none
      else none

/-- step 6 with `k = 8 - pieceIndex`: address, pieceIndex and compress after the loop -/
def v6Loop : (k : Nat) → (addr : List Nat) → (compress : Option Nat) → Str →
    Option (List Nat × Nat × Option Nat)
  | k, addr, compress, [] => some (addr, 8 - k, compress)
  | 0, _, _, _ :: _ => none
  | k + 1, addr, compress, c :: cs =>
    if c = c!":" then
      if compress.isSome then none else v6Loop k addr (some (8 - k)) cs
    else
      match v6Hex 4 0 0 (c :: cs) with
      | (_, length, 46 :: _) =>
        if length = 0 then none
        else if 8 - (k + 1) > 6 then none
        else (v4Loop 4 addr (8 - (k + 1)) (c :: cs)).map fun r => (r.1, r.2, compress)
      | (value, _, []) => some (addr.set (8 - (k + 1)) value, 8 - k, compress)
      | (value, _, 58 :: rest) =>
        if rest = [] then none else v6Loop k (addr.set (8 - (k + 1)) value) compress rest
      | _ => none

/-- step 7: swap the pieces behind the compression to the end -/
def v6Swap (compress : Nat) : (swaps pieceIndex : Nat) → List Nat → List Nat
  | swaps + 1, pieceIndex + 1, a =>
    v6Swap compress swaps pieceIndex
      ((a.set (pieceIndex + 1) (a.getD (compress + swaps) 0)).set (compress + swaps)
        (a.getD (pieceIndex + 1) 0))
  | _, _, a => a

/-- The IPv6 parser. -/
def ipv6Parse (input : Str) : Option (List Nat) :=
  let zeros := [0, 0, 0, 0, 0, 0, 0, 0]
  let after := match input with
    | 58 :: 58 :: rest => v6Loop 7 zeros (some 1) rest
    | 58 :: _ => none
    | _ => v6Loop 8 zeros none input
  match after with
  | none => none
  | some (addr, pieceIndex, some compress) => some (v6Swap compress (pieceIndex - compress) 7 addr)
  | some (addr, pieceIndex, none) => if pieceIndex = 8 then some addr else none

/-! ### IPv6 serializer -/

/-- eight pieces of 16 bits -/
def IsV6 (a : List Nat) : Prop := a.length = 8 ∧ ∀ v ∈ a, v < 65536

/-- lower-case hex without leading zeros, by repeated division -/
def hexText (n : Nat) : Str :=
  if h : n < 16 then [u!"0123456789abcdef".getD n 0]
  else hexText (n / 16) ++ [u!"0123456789abcdef".getD (n % 16) 0]
termination_by n

/-- pieces in hex separated by colons -/
def hexColons : List Nat → Str
  | [] => []
  | [v] => hexText v
  | v :: w :: ws => hexText v ++ u!":" ++ hexColons (w :: ws)

/-- `a[i .. i+n)` exists and consists of zeros -/
def ZeroRun (a : List Nat) (i n : Nat) : Prop := i + n ≤ a.length ∧ ∀ j, j < n → a.getD (i + j) 1 = 0

/-- `a[i .. i+n)` is the first of the longest runs of zeros, and has at least two pieces -/
def FirstLongestZeroRun (a : List Nat) (i n : Nat) : Prop :=
  2 ≤ n ∧ ZeroRun a i n ∧ (∀ j m, ZeroRun a j m → m ≤ n) ∧ (∀ j, j < i → ¬ ZeroRun a j n)

/-! ### Forbidden code points -/

/-- https://url.spec.whatwg.org/#forbidden-host-code-point: U+0000 NULL, U+0009 TAB, U+000A LF,
U+000D CR, U+0020 SPACE, U+0023 (#), U+002F (/), U+003A (:), U+003C (<), U+003E (>), U+003F (?),
U+0040 (@), U+005B ([), U+005C (\\), U+005D (]), U+005E (^), or U+007C (|) -/
def ForbiddenHostCP (c : Nat) : Prop :=
  c = 0x00 ∨ c = 0x09 ∨ c = 0x0A ∨ c = 0x0D ∨ c = 0x20 ∨ c = 0x23 ∨ c = 0x2F ∨ c = 0x3A ∨ c = 0x3C ∨
  c = 0x3E ∨ c = 0x3F ∨ c = 0x40 ∨ c = 0x5B ∨ c = 0x5C ∨ c = 0x5D ∨ c = 0x5E ∨ c = 0x7C

/-- https://url.spec.whatwg.org/#forbidden-domain-code-point: a forbidden host code point, a C0
control, U+0025 (%), or U+007F DELETE -/
def ForbiddenDomainCP (c : Nat) : Prop := ForbiddenHostCP c ∨ c ≤ 0x1F ∨ c = 0x25 ∨ c = 0x7F

instance (c : Nat) : Decidable (ForbiddenHostCP c) := by unfold ForbiddenHostCP; infer_instance
instance (c : Nat) : Decidable (ForbiddenDomainCP c) := by unfold ForbiddenDomainCP; infer_instance

end Urlstd.Spec
