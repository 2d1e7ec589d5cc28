/-
UTF-8, percent-encoding and application/x-www-form-urlencoded (parse.py:55-552).
-/
import Verif.Py

namespace Urlstd

/-! ### Percent-encode sets (parse.py:81-111)

A safe set is modelled by its membership test on characters. -/

/-- `SAFE_C0_CONTROL_PERCENT_ENCODE_SET` (parse.py:81-83). -/
def safeC0 (c : Nat) : Bool := 0x20 ≤ c && c < 0x7F
/-- `SAFE_FRAGMENT_PERCENT_ENCODE_SET` (parse.py:85-87). -/
def safeFragment (c : Nat) : Bool := safeC0 c && !(u!" \"<>`").contains c
/-- `SAFE_QUERY_PERCENT_ENCODE_SET` (parse.py:89-91). -/
def safeQuery (c : Nat) : Bool := safeC0 c && !(u!" \"#<>").contains c
/-- `SAFE_SPECIAL_QUERY_PERCENT_ENCODE_SET` (parse.py:93-95). -/
def safeSpecialQuery (c : Nat) : Bool := safeQuery c && !(u!"'").contains c
/-- `SAFE_PATH_PERCENT_ENCODE_SET` (parse.py:97-99). -/
def safePath (c : Nat) : Bool := safeQuery c && !(u!"?`{}").contains c
/-- `SAFE_USERINFO_PERCENT_ENCODE_SET` (parse.py:101-103). -/
def safeUserinfo (c : Nat) : Bool := safePath c && !(u!"/:;=@[\\]^|").contains c
/-- `SAFE_COMPONENT_PERCENT_ENCODE_SET` (parse.py:105-107). -/
def safeComponent (c : Nat) : Bool := safeUserinfo c && !(u!"$%&+,").contains c
/-- `SAFE_URLENCODED_PERCENT_ENCODE_SET` (parse.py:109-111). -/
def safeUrlencoded (c : Nat) : Bool := safeComponent c && !(u!"!'()~").contains c

/-! ### UTF-16 and UTF-8 codecs of CPython -/

/-- `s.encode("utf-16", "surrogatepass")` as code units (the BOM it writes is the one
`decode("utf-16")` consumes, so it is left out). -/
def utf16Units (s : Str) : List Nat :=
  s.flatMap fun c =>
    if c < 0x10000 then [c] else [0xD800 + (c - 0x10000) / 0x400, 0xDC00 + (c - 0x10000) % 0x400]

/-- high (leading) surrogate -/
def isHigh (u : Nat) : Bool := 0xD800 ≤ u && u ≤ 0xDBFF
/-- low (trailing) surrogate -/
def isLow (u : Nat) : Bool := 0xDC00 ≤ u && u ≤ 0xDFFF

/-- `b.decode("utf-16", "replace")` on code units. -/
def utf16Decode : List Nat → Str
  | [] => []
  | [u] => if isHigh u || isLow u then [0xFFFD] else [u]
  | u :: v :: rest =>
    if isHigh u then
      if isLow v then (0x10000 + (u - 0xD800) * 0x400 + (v - 0xDC00)) :: utf16Decode rest
      else 0xFFFD :: utf16Decode (v :: rest)
    else if isLow u then 0xFFFD :: utf16Decode (v :: rest)
    else u :: utf16Decode (v :: rest)

/-- `s.encode("utf-16", "surrogatepass").decode("utf-16", "replace")` (parse.py:351, 528). -/
def toScalar (s : Str) : Str := utf16Decode (utf16Units s)

/-- UTF-8 encoding of one scalar value. -/
def utf8EncodeCP (c : Nat) : Bytes :=
  if c < 0x80 then [c]
  else if c < 0x800 then [0xC0 + c / 0x40, 0x80 + c % 0x40]
  else if c < 0x10000 then [0xE0 + c / 0x1000, 0x80 + c / 0x40 % 0x40, 0x80 + c % 0x40]
  else [0xF0 + c / 0x40000, 0x80 + c / 0x1000 % 0x40, 0x80 + c / 0x40 % 0x40, 0x80 + c % 0x40]

/-- `s.encode("utf-8", "strict")` on a string without surrogates. -/
def utf8EncodeStrict (s : Str) : Bytes := s.flatMap utf8EncodeCP

/-- `utf8_encode` (parse.py:511-529). -/
def utf8Encode (s : Str) : Bytes := utf8EncodeStrict (toScalar s)

/-- UTF-8 continuation byte -/
def isCont (b : Nat) : Bool := 0x80 ≤ b && b < 0xC0

/-- second byte acceptable after lead byte `b0` of a three-byte sequence -/
def ok3 (b0 b1 : Nat) : Bool := isCont b1 && !(if b1 < 0xA0 then b0 == 0xE0 else b0 == 0xED)
/-- second byte acceptable after lead byte `b0` of a four-byte sequence -/
def ok4 (b0 b1 : Nat) : Bool := isCont b1 && !(if b1 < 0x90 then b0 == 0xF0 else b0 == 0xF4)

/-- `b.decode("utf-8", "replace")`: CPython's decoder (`stringlib/codecs.h utf8_decode` with the
replacement error handler), which replaces every maximal ill-formed prefix by one U+FFFD.
This is `utf8_decode` (parse.py:497-508). -/
def utf8Decode : Bytes → Str
  | [] => []
  | b0 :: t0 =>
    if b0 < 0x80 then b0 :: utf8Decode t0
    else if b0 < 0xC2 then 0xFFFD :: utf8Decode t0              -- invalid start byte
    else if b0 < 0xE0 then
      match t0 with
      | [] => [0xFFFD]                                          -- unexpected end of data
      | b1 :: t1 =>
        if isCont b1 then ((b0 - 0xC0) * 0x40 + (b1 - 0x80)) :: utf8Decode t1
        else 0xFFFD :: utf8Decode (b1 :: t1)                    -- invalid continuation byte
    else if b0 < 0xF0 then
      match t0 with
      | [] => [0xFFFD]
      | b1 :: t1 =>
        if ok3 b0 b1 then
          match t1 with
          | [] => [0xFFFD]
          | b2 :: t2 =>
            if isCont b2 then
              ((b0 - 0xE0) * 0x1000 + (b1 - 0x80) * 0x40 + (b2 - 0x80)) :: utf8Decode t2
            else 0xFFFD :: utf8Decode (b2 :: t2)
        else 0xFFFD :: utf8Decode (b1 :: t1)
    else if b0 < 0xF5 then
      match t0 with
      | [] => [0xFFFD]
      | b1 :: t1 =>
        if ok4 b0 b1 then
          match t1 with
          | [] => [0xFFFD]
          | b2 :: t2 =>
            if isCont b2 then
              match t2 with
              | [] => [0xFFFD]
              | b3 :: t3 =>
                if isCont b3 then
                  ((b0 - 0xF0) * 0x40000 + (b1 - 0x80) * 0x1000 + (b2 - 0x80) * 0x40 + (b3 - 0x80))
                    :: utf8Decode t3
                else 0xFFFD :: utf8Decode (b3 :: t3)
            else 0xFFFD :: utf8Decode (b2 :: t2)
        else 0xFFFD :: utf8Decode (b1 :: t1)
    else 0xFFFD :: utf8Decode t0                                -- invalid start byte

/-! ### `urllib.parse` -/

/-- one piece after a '%' in `unquote_to_bytes` (CPython Lib/urllib/parse.py). -/
def unquoteItem (item : Bytes) : Bytes :=
  match item with
  | a :: b :: rest =>
    if isHex a && isHex b then (hexVal a * 16 + hexVal b) :: rest else c!"%" :: item
  | _ => c!"%" :: item

/-- `urllib.parse.unquote_to_bytes` on bytes, imported as `percent_decode` (parse.py:20). -/
def percentDecode (bs : Bytes) : Bytes :=
  match splitOn c!"%" bs with
  | [] => []
  | b0 :: items => b0 ++ items.flatMap unquoteItem

/-- `_ALWAYS_SAFE` of `urllib.parse`: letters, digits and `_.-~`. -/
def alwaysSafe (b : Nat) : Bool := isAlnum b || (u!"_.-~").contains b

/-- a byte that `quote_from_bytes` leaves alone: always safe, or an ASCII member of `safe` -/
def quoteSafe (safe : Nat → Bool) (b : Nat) : Bool := alwaysSafe b || (decide (b < 128) && safe b)

/-- `'%{:02X}'.format(b)` for a byte. -/
def pctByte (b : Nat) : Str := [c!"%", hexDigitUpper (b / 16), hexDigitUpper (b % 16)]

/-- `_Quoter.__missing__`. -/
def quoter (safe : Nat → Bool) (b : Nat) : Str := if quoteSafe safe b then [b] else pctByte b

/-- `urllib.parse.quote_from_bytes(bs, safe)`. The fast path returns `bs` when all bytes are safe. -/
def quoteFromBytes (safe : Nat → Bool) (bs : Bytes) : Str :=
  if bs.all (quoteSafe safe) then bs else bs.flatMap (quoter safe)

/-- `s.replace(" ", "+")`. -/
def spaceToPlus (s : Str) : Str := s.map fun c => if c = 0x20 then c!"+" else c

/-- `quote(b, safe)` / `quote_plus(b, safe)` on the encoded bytes `bs` of a text; `hasSpace` is
`' ' in text`. (`quote` returns the empty text unchanged, which is also what `quoteFromBytes` does.) -/
def quoteVia (spaceAsPlus : Bool) (safe : Nat → Bool) (hasSpace : Bool) (bs : Bytes) : Str :=
  if spaceAsPlus && hasSpace then
    spaceToPlus (quoteFromBytes (fun c => safe c || c == 0x20) bs)
  else quoteFromBytes safe bs

/-! ### Encodings -/

/-- The `encoding` argument: UTF-8 (any of the names mapped to it, parse.py:138-142, 4193-4195), or
a legacy codec given by its per-character encoder (`none` = UnicodeEncodeError).
Simplification: stateful codecs are not modelled. -/
inductive Encoding where
  | utf8
  | other (enc : Nat → Option Bytes)

/-- encode one character -/
def Encoding.enc : Encoding → Nat → Option Bytes
  | .utf8, c => some (utf8EncodeCP c)
  | .other f, c => f c

/-- `s.encode(encoding, "strict")`. -/
def Encoding.encodeStrict (e : Encoding) : Str → Option Bytes
  | [] => some []
  | c :: cs => match e.enc c, e.encodeStrict cs with
    | some b, some bs => some (b ++ bs)
    | _, _ => none

/-- the `xmlcharrefreplace` replacement `&#N;` -/
def xmlCharRef (c : Nat) : Bytes := u!"&#" ++ natDec c ++ u!";"

/-- one step of the fallback loop (parse.py:359-363). -/
def encodeFallback1 (e : Encoding) (safe : Nat → Bool) (spaceAsPlus : Bool) (c : Nat) : Str :=
  let b := (e.enc c).getD (xmlCharRef c)
  if b.isEmpty then []
  else if b.take 2 == u!"&#" then
    -- quote_via(b): the default `safe` is "/" for quote and "" for quote_plus
    quoteVia spaceAsPlus (fun x => !spaceAsPlus && x == c!"/") (b.contains 0x20) b
  else quoteVia spaceAsPlus safe (b.contains 0x20) b

/-- `string_percent_encode` (parse.py:317-364). -/
def stringPercentEncode (s : Str) (safe : Nat → Bool) (e : Encoding := .utf8)
    (spaceAsPlus : Bool := false) : Str :=
  let s := toScalar s
  match e.encodeStrict s with
  | some bs => quoteVia spaceAsPlus safe (s.contains 0x20) bs
  | none => s.flatMap (encodeFallback1 e safe spaceAsPlus)

/-- `utf8_percent_encode` (parse.py:532-552). -/
def utf8PercentEncode (s : Str) (safe : Nat → Bool) (spaceAsPlus : Bool := false) : Str :=
  stringPercentEncode s safe .utf8 spaceAsPlus

/-- `string_percent_decode` (parse.py:289-314). -/
def stringPercentDecode (s : Str) : Bytes := percentDecode (utf8Encode s)

/-! ### application/x-www-form-urlencoded -/

/-- `b.replace(b"+", b" ")`. -/
def plusToSpace (b : Bytes) : Bytes := b.map fun c => if c = c!"+" then 0x20 else c

/-- one sequence of `parse_qsl` (parse.py:260-267). -/
def qslItem (sequence : Bytes) : Str × Str :=
  let nv := splitFirst c!"=" sequence
  (utf8Decode (percentDecode (plusToSpace nv.1)), utf8Decode (percentDecode (plusToSpace nv.2)))

/-- `parse_qsl` (parse.py:231-268). -/
def parseQsl (query : Bytes) : List (Str × Str) :=
  ((splitOn c!"&" query).filter fun s => !s.isEmpty).map qslItem

/-- `urlencode` (parse.py:371-421). -/
def urlencode (query : List (Str × Str)) (e : Encoding := .utf8) : Str :=
  joinWith u!"&" (query.map fun nv =>
    stringPercentEncode nv.1 safeUrlencoded e true ++ u!"=" ++
    stringPercentEncode nv.2 safeUrlencoded e true)

end Urlstd
