/-
Specifications for text: surrogates, UTF-8, percent-decoding. Independent of the model.
-/
import Verif.Spec.Ascii

namespace Urlstd.Spec

/-- A Python string: every element is a code point. -/
def IsStr (s : Str) : Prop := ∀ c ∈ s, c ≤ 0x10FFFF

instance (s : Str) : Decidable (IsStr s) := inferInstanceAs (Decidable (∀ c ∈ s, c ≤ 0x10FFFF))

/-- surrogate code point -/
def Surrogate (c : Nat) : Prop := 0xD800 ≤ c ∧ c ≤ 0xDFFF

instance (c : Nat) : Decidable (Surrogate c) := inferInstanceAs (Decidable (_ ∧ _))

/-- A string of Unicode scalar values. -/
def IsScalarStr (s : Str) : Prop := ∀ c ∈ s, c ≤ 0x10FFFF ∧ ¬ Surrogate c

/-- "every surrogate pair combined into the code point it denotes and every unpaired surrogate
replaced by U+FFFD" -/
def combineSurrogates : Str → Str
  | [] => []
  | [a] => if Surrogate a then [0xFFFD] else [a]
  | a :: b :: rest =>
    if (0xD800 ≤ a ∧ a ≤ 0xDBFF) ∧ (0xDC00 ≤ b ∧ b ≤ 0xDFFF) then
      (0x10000 + (a - 0xD800) * 1024 + (b - 0xDC00)) :: combineSurrogates rest
    else if Surrogate a then 0xFFFD :: combineSurrogates (b :: rest)
    else a :: combineSurrogates (b :: rest)

/-- a surrogate pair occurs before the first "?" or "#" -/
def PairInFront (s : Str) : Prop :=
  ∃ pre a b post, s = pre ++ a :: b :: post ∧ (0xD800 ≤ a ∧ a ≤ 0xDBFF) ∧ (0xDC00 ≤ b ∧ b ≤ 0xDFFF) ∧
    ∀ c ∈ pre, c ≠ c!"?" ∧ c ≠ c!"#"

/-- The URL Standard's percent-decode: https://url.spec.whatwg.org/#percent-decode -/
def percentDecode : Bytes → Bytes
  | 37 :: a :: b :: rest =>
    if isHex a ∧ isHex b then (hexVal a * 16 + hexVal b) :: percentDecode rest
    else 37 :: percentDecode (a :: b :: rest)
  | x :: rest => x :: percentDecode rest
  | [] => []

/-! ### The Encoding Standard's UTF-8 decoder -/

/-- State of https://encoding.spec.whatwg.org/#utf-8-decoder: bytes still needed, code point so far,
lower and upper boundary of the next byte. -/
structure U8 where
  needed : Nat := 0
  cp : Nat := 0
  lower : Nat := 0x80
  upper : Nat := 0xBF

/-- The handler on a byte when no bytes are needed: emitted code points and the new state. -/
def U8.start (b : Nat) : Str × U8 :=
  if b ≤ 0x7F then ([b], {})
  else if 0xC2 ≤ b ∧ b ≤ 0xDF then ([], { needed := 1, cp := b - 0xC0 })
  else if 0xE0 ≤ b ∧ b ≤ 0xEF then
    ([], { needed := 2, cp := b - 0xE0,
           lower := if b = 0xE0 then 0xA0 else 0x80, upper := if b = 0xED then 0x9F else 0xBF })
  else if 0xF0 ≤ b ∧ b ≤ 0xF4 then
    ([], { needed := 3, cp := b - 0xF0,
           lower := if b = 0xF0 then 0x90 else 0x80, upper := if b = 0xF4 then 0x8F else 0xBF })
  else ([0xFFFD], {})

/-- The handler on a byte. A byte outside the boundaries gives an error (U+FFFD) and is
read again in the initial state ("restore byte to ioQueue"). -/
def U8.byte (st : U8) (b : Nat) : Str × U8 :=
  if st.needed = 0 then U8.start b
  else if st.lower ≤ b ∧ b ≤ st.upper then
    let cp := st.cp * 64 + (b - 0x80)
    if st.needed = 1 then ([cp], {}) else ([], { needed := st.needed - 1, cp := cp })
  else (0xFFFD :: (U8.start b).1, (U8.start b).2)

/-- Run the decoder to the end of the stream. -/
def utf8DecodeFrom (st : U8) : Bytes → Str
  | [] => if st.needed = 0 then [] else [0xFFFD]
  | b :: bs => (st.byte b).1 ++ utf8DecodeFrom (st.byte b).2 bs

/-- "UTF-8 decode without BOM". -/
def utf8Decode (bs : Bytes) : Str := utf8DecodeFrom {} bs

/-! ### UTF-8 percent-encoding -/

/-- The UTF-8 encoding of a scalar value, by the bit patterns of RFC 3629. -/
def utf8CP (c : Nat) : Bytes :=
  if c ≤ 0x7F then [c]
  else if c ≤ 0x7FF then [0b11000000 + c / 2 ^ 6, 0b10000000 + c % 2 ^ 6]
  else if c ≤ 0xFFFF then
    [0b11100000 + c / 2 ^ 12, 0b10000000 + c / 2 ^ 6 % 2 ^ 6, 0b10000000 + c % 2 ^ 6]
  else [0b11110000 + c / 2 ^ 18, 0b10000000 + c / 2 ^ 12 % 2 ^ 6, 0b10000000 + c / 2 ^ 6 % 2 ^ 6,
    0b10000000 + c % 2 ^ 6]

/-- UTF-8 encode, after the conversion to scalar values. -/
def utf8 (s : Str) : Bytes := (combineSurrogates s).flatMap utf8CP

/-- the upper-case hex digit with value `d` -/
def hexUpper (d : Nat) : Nat := u!"0123456789ABCDEF".getD d 0

/-- Percent-encode a byte: https://url.spec.whatwg.org/#percent-encode -/
def pct (b : Nat) : Str := [c!"%", hexUpper (b / 16), hexUpper (b % 16)]

/-- Percent-encode a byte sequence leaving the bytes in `keep` alone, a space becoming '+' on request. -/
def percentEncode (keep : Nat → Bool) (spaceAsPlus : Bool) (bs : Bytes) : Str :=
  bs.flatMap fun b => if spaceAsPlus ∧ b = 0x20 then [c!"+"] else if keep b then [b] else pct b

/-! ### application/x-www-form-urlencoded -/

/-- name and value of one sequence (https://url.spec.whatwg.org/#urlencoded-parsing step 3.2-3.5) -/
def urlencodedPair (bytes : Bytes) : Str × Str :=
  let dec (b : Bytes) := utf8Decode (percentDecode (b.map fun x => if x = c!"+" then 0x20 else x))
  (dec (bytes.takeWhile (· ≠ c!"=")), dec ((bytes.dropWhile (· ≠ c!"=")).drop 1))

/-- the sequences between '&', empty ones skipped; `acc` is the sequence read so far -/
def urlencodedParseFrom (acc : Bytes) : Bytes → List (Str × Str)
  | [] => if acc = [] then [] else [urlencodedPair acc]
  | b :: bs =>
    if b = c!"&" then (if acc = [] then [] else [urlencodedPair acc]) ++ urlencodedParseFrom [] bs
    else urlencodedParseFrom (acc ++ [b]) bs

/-- The application/x-www-form-urlencoded parser. -/
def urlencodedParse (bs : Bytes) : List (Str × Str) := urlencodedParseFrom [] bs

/-- Bytes that the application/x-www-form-urlencoded percent-encode set leaves alone:
ASCII alphanumerics and `*-._`. -/
def urlencodedKeep (b : Nat) : Bool := isAlnum b || u!"*-._".contains b

/-- The application/x-www-form-urlencoded serializer, for a given set of unescaped bytes. -/
def urlencodedSerialize (keep : Nat → Bool) : List (Str × Str) → Str
  | [] => []
  | [(n, v)] => percentEncode keep true (utf8 n) ++ u!"=" ++ percentEncode keep true (utf8 v)
  | (n, v) :: p :: ps =>
    percentEncode keep true (utf8 n) ++ u!"=" ++ percentEncode keep true (utf8 v) ++ u!"&" ++
      urlencodedSerialize keep (p :: ps)

end Urlstd.Spec
