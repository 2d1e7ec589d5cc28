/-
Hosts: character tests, IPv4, IPv6, IDNA, `Host` (parse.py:182-287, 582-706, 958-1549).
-/
import Verif.Codec

namespace Urlstd

/-! ### Character tests -/

/-- `FORBIDDEN_HOST_CODE_POINT` (parse.py:75). -/
def isForbiddenHost (c : Nat) : Bool := (0 :: u!"\t\n\r #/:<>?@[\\]^|").contains c
/-- `FORBIDDEN_DOMAIN_CODE_POINT` (parse.py:77-79). -/
def isForbiddenDomain (c : Nat) : Bool := isForbiddenHost c || isC0 c || c == c!"%" || c == 0x7F

/-- `is_windows_drive_letter` (parse.py:227-228). -/
def isWindowsDriveLetter (t : Str) : Bool :=
  match t with
  | [a, b] => isAlpha a && (b == c!":" || b == c!"|")
  | _ => false

/-- `is_normalized_windows_drive_letter` (parse.py:182-183). -/
def isNormalizedWindowsDriveLetter (t : Str) : Bool :=
  isWindowsDriveLetter t && t.drop 1 == u!":"

/-- `starts_with_windows_drive_letter` (parse.py:281-286). -/
def startsWithWindowsDriveLetter (t : Str) : Bool :=
  match t with
  | a :: b :: rest =>
    isWindowsDriveLetter [a, b] &&
      (match rest with
        | [] => true
        | c :: _ => (u!"/\\?#").contains c)
  | _ => false

/-- noncharacters as listed in parse.py:199-207 (those of plane 16 lie above the upper bound
U+10FFFD anyway). -/
def isNonchar (c : Nat) : Bool := (0xFDD0 ≤ c && c ≤ 0xFDEF) || c % 0x10000 ≥ 0xFFFE

/-- one character of `is_url_code_points` without `including`/`excluding` (parse.py:186-211). -/
def isUrlCP (c : Nat) : Bool :=
  isAlnum c || (u!"!$&'()*+,-./:;=?@_~").contains c ||
  ((0xA0 ≤ c && c ≤ 0x10FFFD) && !isHigh c && !isLow c && !isNonchar c)

/-- `is_url_units` (parse.py:214-224): the offending piece, or `none` for `True, ""`.
`exc` is `excluding`; `including` is always the default "%". -/
def urlUnitsError (exc : Nat → Bool) (s : Str) : Option Str :=
  match s.find? (fun c => exc c || !(isUrlCP c || c == c!"%")) with
  | some c => some [c]
  | none =>
    -- `PERCENT_RE.finditer(s)`: the pieces "%[^%]*"
    match ((splitOn c!"%" s).drop 1).find? (fun p => p.length < 2 || (p.take 2).any (!isHex ·)) with
    | some p => some ((c!"%" :: p).take 3)
    | none => none

/-! ### IPv4 (parse.py:1168-1307) -/

/-- `IPv4Address._parse_ipv4_number` (parse.py:1170-1193): (value or -1, validation error). -/
def parseIPv4Number (env : Env) (address : Str) : Int × Bool :=
  match address with
  | [] => (-1, true)
  | [c] =>
    match pyInt env 10 [c] with
    | some v => (v, false)
    | none => (-1, true)
  | c0 :: c1 :: rest =>
    if c0 == c!"0" && (c1 == c!"x" || c1 == c!"X") then
      if rest.isEmpty then (0, true) else
      match pyInt env 16 rest with
      | some v => (v, true)
      | none => (-1, true)
    else if c0 == c!"0" then
      match pyInt env 8 (c1 :: rest) with
      | some v => (v, true)
      | none => (-1, true)
    else
      match pyInt env 10 address with
      | some v => (v, false)
      | none => (-1, true)

/-- `IPv4Address.is_ends_in_a_number` (parse.py:1195-1210). -/
def isEndsInANumber (env : Env) (address : Str) : Bool :=
  let parts := splitOn c!"." address
  let lastEmpty := (parts.getLastD []).isEmpty
  if lastEmpty && parts.length == 1 then false else
  let parts := if lastEmpty then parts.dropLast else parts
  let last := parts.getLastD []
  if !last.isEmpty && last.all isDigit then true
  else decide (0 ≤ (parseIPv4Number env last).1)

/-- the loop of `IPv4Address.parse` over the parts (parse.py:1237-1258). -/
def ipv4Numbers (env : Env) : List Str → (numbers : List Nat) → (log : Log) → Res (List Nat)
  | [], numbers, log => .ok numbers log
  | part :: parts, numbers, log =>
    let result := parseIPv4Number env part
    if result.1 < 0 then .err .ipv4Parse (.ev .ipv4NonNumericPart :: log)
    else
      let log := if result.2 then .ev .ipv4NonDecimalPart :: log else log
      ipv4Numbers env parts (numbers ++ [result.1.toNat]) log

/-- `ipv4 = numbers[-1]; for counter, n in enumerate(numbers[:-1]): ipv4 += n * 256 ** (3 - counter)`
(parse.py:1295-1298). At most four numbers, so the exponent is never negative. -/
def ipv4Sum : List Nat → (counter ipv4 : Nat) → Nat
  | [], _, ipv4 => ipv4
  | n :: ns, counter, ipv4 => ipv4Sum ns (counter + 1) (ipv4 + n * 256 ^ (3 - counter))

/-- `IPv4Address.parse` (parse.py:1212-1298). `%r` of `numbers` raises ValueError when a number has
too many digits; with `validity` that happens already while recording the validation error. -/
def ipv4Parse (env : Env) (address : Str) : Res Nat :=
  let parts := splitOn c!"." address
  let lastEmpty := (parts.getLastD []).isEmpty
  let log : Log := if lastEmpty then [.ev .ipv4EmptyPart] else []
  let parts := if lastEmpty && decide (parts.length > 1) then parts.dropLast else parts
  if parts.length > 4 then .err .ipv4Parse (.ev .ipv4TooManyParts :: log)
  else
    match ipv4Numbers env parts [] log with
    | ⟨.error e, log⟩ => .err e log
    | ⟨.ok numbers, log⟩ =>
      let tooLong := numbers.any (strTooLong env)
      let last := numbers.getLastD 0
      let out := numbers.any (· > 255)
      if out && env.validity && tooLong then .err .valueError (.broken .ipv4OutOfRangePart :: log)
      else
        let log := if out then .ev .ipv4OutOfRangePart :: log else log
        if numbers.dropLast.any (· > 255) && decide (last ≤ 255) then
          if tooLong then
            .err .valueError (if env.validity then .broken .undefined :: log else log)
          else .err .ipv4Parse (.ev .undefined :: log)
        else if last ≥ 256 ^ (5 - numbers.length) then
          if tooLong then
            .err .valueError (if env.validity then .broken .undefined :: log else log)
          else .err .ipv4Parse (.ev .undefined :: log)
        else .ok (ipv4Sum numbers.dropLast 0 last) log

/-- the loop of `IPv4Address.serialize` (parse.py:1304-1306). -/
def ipv4SerLoop : (count : Nat) → (n : Nat) → (output : List Str) → List Str
  | 0, _, output => output
  | count + 1, n, output => ipv4SerLoop count (n / 256) (natDec (n % 256) :: output)

/-- `IPv4Address.serialize` (parse.py:1300-1307). -/
def ipv4Serialize (address : Nat) : Str := joinWith u!"." (ipv4SerLoop 4 address [])

/-! ### IPv6 (parse.py:1310-1549) -/

/-- the local variables of the loop in `IPv6Address.parse` (parse.py:1314-1335);
`prevColon` is `previous == ":"`, the only use made of `previous`. -/
structure V6 where
  addr : List Nat := [0, 0, 0, 0, 0, 0, 0, 0]
  pieceIndex : Nat := 0
  compress : Option Nat := none
  piece : Str := []
  prevColon : Bool := false

/-- an IPv4 part that is malformed (parse.py:1426-1428) -/
def badIPv4Part (x : Str) : Bool :=
  x.isEmpty || x.any (!isDigit ·) || (decide (x.length ≥ 2) && x.headD 0 == c!"0")

/-- the values of the four parts; `none` = ValueError from `int(x)` -/
def ipv4PartValues (env : Env) : List Str → Option (List Nat)
  | [] => some []
  | x :: xs => match pyInt env 10 x, ipv4PartValues env xs with
    | some v, some vs => some (v.toNat :: vs)
    | _, _ => none

/-- the "IPv4 in IPv6" branch (parse.py:1411-1483); `isColon` is `c == ":"`. -/
def v6IPv4 (env : Env) (st : V6) (isColon : Bool) : Res V6 :=
  if st.pieceIndex > 6 then .err .ipv6Parse [.ev .ipv4InIPv6TooManyPieces]
  else
    let pieces := splitOn c!"." st.piece
    if decide (pieces.length > 4) || pieces.any badIPv4Part then
      .err .ipv6Parse [.ev .ipv4InIPv6InvalidCodePoint]
    else
      match ipv4PartValues env pieces with
      | none => .err .valueError
      | some vs =>
        if vs.any (· > 255) then .err .ipv6Parse [.ev .ipv4InIPv6OutOfRangePart]
        else
          match vs with
          | [a, b, c, d] =>
            if st.pieceIndex + 1 < st.addr.length then
              .ok { st with
                addr := (st.addr.set st.pieceIndex (a * 0x100 + b)).set (st.pieceIndex + 1)
                  (c * 0x100 + d)
                pieceIndex := st.pieceIndex + 2, piece := [], prevColon := isColon }
            else .err .indexError
          | _ => .err .ipv6Parse [.ev .ipv4InIPv6TooFewParts]

/-- the end of a piece: everything after the handling of ":" (parse.py:1380-1483). -/
def v6Piece (env : Env) (st : V6) (isColon : Bool) : Res V6 :=
  if st.piece.isEmpty then
    .ok { st with prevColon := isColon, pieceIndex := st.pieceIndex + 1 }
  else if !st.piece.contains c!"." then
    if decide (st.piece.length > 4) || st.piece.any (!isHex ·) then
      .err .ipv6Parse [.ev .ipv6InvalidCodePoint]
    else
      match pyInt env 16 st.piece with
      | none => .err .valueError
      | some v =>
        if st.pieceIndex < st.addr.length then
          .ok { st with
            addr := st.addr.set st.pieceIndex v.toNat
            pieceIndex := st.pieceIndex + 1, piece := [], prevColon := isColon }
        else .err .indexError
  else v6IPv4 env st isColon

/-- the loop over `cpstream(address[start:])` (parse.py:1336-1483). -/
def v6Loop (env : Env) : Str → V6 → Res V6
  | [], st =>
    if st.pieceIndex ≥ 8 then .err .ipv6Parse [.ev .ipv6TooManyPieces]
    else if st.prevColon then
      if st.compress == some st.pieceIndex then .ok st
      else .err .ipv6Parse [.ev .ipv6InvalidCodePoint]
    else v6Piece env st false
  | c :: cs, st =>
    if st.pieceIndex ≥ 8 then .err .ipv6Parse [.ev .ipv6TooManyPieces]
    else if c ≠ c!":" then v6Loop env cs { st with piece := st.piece ++ [c], prevColon := false }
    else if st.prevColon then
      if st.compress.isSome then .err .ipv6Parse [.ev .ipv6MultipleCompression]
      else v6Loop env cs
        { st with pieceIndex := st.pieceIndex + 1, compress := some (st.pieceIndex + 1) }
    else
      match v6Piece env st true with
      | ⟨.error e, log⟩ => .err e log
      | ⟨.ok st', _⟩ => v6Loop env cs st'

/-- the swap loop (parse.py:1488-1497); `none` = IndexError. -/
def v6Swap (compress : Nat) : (swaps : Nat) → (pieceIndex : Nat) → List Nat → Option (List Nat)
  | 0, _, a => some a
  | swaps + 1, pieceIndex, a =>
    if pieceIndex = 0 then some a
    else if pieceIndex < a.length && compress + swaps < a.length then
      v6Swap compress swaps (pieceIndex - 1)
        ((a.set pieceIndex (a.getD (compress + swaps) 0)).set (compress + swaps)
          (a.getD pieceIndex 0))
    else none

/-- the tail of `IPv6Address.parse` (parse.py:1485-1508). -/
def v6Finish (st : V6) : Res (List Nat) :=
  match st.compress with
  | some compress =>
    match v6Swap compress (st.pieceIndex - compress) 7 st.addr with
    | some a => .ok a
    | none => .err .indexError
  | none =>
    if st.pieceIndex ≠ 8 then .err .ipv6Parse [.ev .ipv6TooFewPieces] else .ok st.addr

/-- the loop and what follows it (parse.py:1336-1508). -/
def v6Run (env : Env) (rest : Str) (st : V6) : Res (List Nat) :=
  match v6Loop env rest st with
  | ⟨.error e, log⟩ => .err e log
  | ⟨.ok st, _⟩ => v6Finish st

/-- `IPv6Address.parse` (parse.py:1311-1508). -/
def ipv6Parse (env : Env) (address : Str) : Res (List Nat) :=
  let init : Except Err (Str × V6) :=
    match address with
    | 58 :: 58 :: rest => .ok (rest, { pieceIndex := 1, compress := some 1 })
    | 58 :: _ => .error .ipv6Parse
    | _ => .ok (address, {})
  match init with
  | .error e => .err e [.ev .ipv6InvalidCompression]
  | .ok (rest, st) => v6Run env rest st

/-- the search for the longest run of zeros (parse.py:1516-1532). -/
def v6FindCompress : List Nat → (pieceIndex : Nat) → (compress start : Option Nat) →
    (maxLen len : Nat) → Option Nat
  | [], _, compress, start, maxLen, len => if len > maxLen then start else compress
  | v :: vs, i, compress, start, maxLen, len =>
    if v = 0 then
      v6FindCompress vs (i + 1) compress (match start with | none => some i | some s => some s)
        maxLen (len + 1)
    else if len > maxLen then v6FindCompress vs (i + 1) start none len 0
    else v6FindCompress vs (i + 1) compress none maxLen 0

/-- the output loop (parse.py:1534-1549). -/
def v6Out (compress : Option Nat) : List Nat → (pieceIndex : Nat) → (ignore0 : Bool) → Str → Str
  | [], _, _, output => output
  | v :: vs, i, ignore0, output =>
    if ignore0 && v == 0 then v6Out compress vs (i + 1) true output
    else if compress == some i then
      v6Out compress vs (i + 1) true (output ++ (if i = 0 then u!"::" else u!":"))
    else
      v6Out compress vs (i + 1) false
        (output ++ natHex v ++ (if i ≠ 7 then u!":" else []))

/-- `IPv6Address.serialize` (parse.py:1510-1549). The assertion `len(address) == 8` holds for every
address the parser produces (`ipv6Parse_length`). -/
def ipv6Serialize (address : List Nat) : Str :=
  v6Out (v6FindCompress address 0 none none 1 0) address 0 false []

/-! ### IDNA (parse.py:958-1165) -/

/-- `_CHECK_HYPHENS_ERRORS` (parse.py:965-969) with ICU's constants 0x08, 0x10, 0x20. -/
def checkHyphensErrors : Nat := 0x38
/-- `_VERIFY_DNS_LENGTH_ERRORS` (parse.py:971-975) with ICU's constants 0x01, 0x02, 0x04. -/
def verifyDnsLengthErrors : Nat := 0x07

/-- `errors & ~allowed`. -/
def maskErrors (errors allowed : Nat) : Nat := errors ^^^ (errors &&& allowed)

/-- `IDNA.domain_to_ascii` (parse.py:1017-1100). -/
def domainToAscii (env : Env) (domain : Str) (beStrict : Bool) : Res Str :=
  match env.nameToAscii beStrict domain with
  | .failure => .err .idna [.ev .domainToASCII]
  | .ok dest errors =>
    let allowed :=
      if beStrict then checkHyphensErrors else checkHyphensErrors ||| verifyDnsLengthErrors
    if maskErrors errors allowed ≠ 0 then .err .hostParse [.ev .domainToASCII]
    else if dest.isEmpty then .err .hostParse [.ev .domainToASCII]
    else .ok dest

/-- `IDNA.domain_to_unicode` (parse.py:1102-1165). -/
def domainToUnicode (env : Env) (domain : Str) (beStrict : Bool) : Res Str :=
  match env.nameToUnicode beStrict domain with
  | .failure => .err .idna [.ev .domainToUnicode]
  | .ok dest errors =>
    if maskErrors errors (checkHyphensErrors ||| verifyDnsLengthErrors) ≠ 0 then
      .ok dest [.ev .domainToUnicode]
    else .ok dest

/-! ### Host (parse.py:582-706) -/

/-- A host: `str` (domain, opaque or empty host), `int` (IPv4), `tuple` (IPv6). -/
inductive Host where
  | str (s : Str)
  | ipv4 (n : Nat)
  | ipv6 (pieces : List Nat)
  deriving DecidableEq, Repr, Inhabited

/-- `Host._parse_opaque_host` (parse.py:585-621). -/
def parseOpaqueHost (host : Str) : Res Str :=
  if host.any isForbiddenHost then .err .hostParse [.ev .hostInvalidCodePoint]
  else
    .ok (utf8PercentEncode host safeC0)
      (if (urlUnitsError (fun _ => false) host).isSome then [.ev .invalidURLUnit] else [])

/-- `Host.parse` (parse.py:623-688). -/
def hostParse (env : Env) (host : Str) (isNotSpecial : Bool) : Res Host :=
  match host with
  | [] => .ok (.str [])
  | h0 :: htail =>
    if h0 = c!"[" then
      if host.getLastD 0 ≠ c!"]" then .err .ipv6Parse [.ev .ipv6Unclosed]
      else
        -- host[1:-1]
        match ipv6Parse env htail.dropLast with
        | ⟨.ok a, log⟩ => .ok (.ipv6 a) log
        | ⟨.error e, log⟩ => .err e log
    else if isNotSpecial then
      match parseOpaqueHost host with
      | ⟨.ok s, log⟩ => .ok (.str s) log
      | ⟨.error e, log⟩ => .err e log
    else
      match domainToAscii env (utf8Decode (stringPercentDecode host)) false with
      | ⟨.error e, log⟩ => .err e log
      | ⟨.ok ascii, log⟩ =>
        if ascii.any isForbiddenDomain then
          .err .hostParse (.ev .domainInvalidCodePoint :: log)
        else if isEndsInANumber env ascii then
          match ipv4Parse env ascii with
          | ⟨.ok n, log'⟩ => .ok (.ipv4 n) (log' ++ log)
          | ⟨.error e, log'⟩ => .err e (log' ++ log)
        else .ok (.str ascii) log

/-- `Host.serialize` (parse.py:690-706). -/
def hostSerialize : Host → Str
  | .str s => s
  | .ipv4 n => ipv4Serialize n
  | .ipv6 a => u!"[" ++ ipv6Serialize a ++ u!"]"

end Urlstd
