/-
What the descriptions of validation errors show (parse.py:3061-4321): the arguments of the calls of `log.info` and `log.error` in
`BasicURLParser`, i.e. the text, the part of it that is at fault and its position. `Parser.lean` has the types of the errors only;
`notes_log` (Lemmas/Notes) shows that both agree. The formatting of the message (`msg % args`) is not modelled.
-/
import Verif.Parser

namespace Urlstd

/-- One validation error as it is described. -/
inductive Note where
  /-- "… %r in %r at position %d": type, the part shown (a code point shown as "U+%04X (%s)" is a part of length one), the text,
  the position -/
  | at (kind : VErr) (part : Option Str) (text : Str) (pos : Nat)
  /-- a description that shows the text only -/
  | plain (kind : VErr) (text : Str)
  /-- recorded while parsing the host -/
  | host (ev : LogEv)
  deriving DecidableEq, Repr

/-- the call of `ValidityState.prepend` as the parser's model has it -/
def Note.ev : Note → LogEv
  | .at k _ _ _ => .ev k
  | .plain k _ => .ev k
  | .host e => e

/-- the checks for a code point of a path, query or fragment, at `index` (parse.py:3294-3321, 3467-3494, 3568-3595, 3754-3781). -/
def unitNote (s : Str) (index : Nat) (c : Nat) (cs : Str) : List Note :=
  if !isUrlCP c && c != c!"%" then [.at .invalidURLUnit (some [c]) s index]
  else if c == c!"%" && (decide (cs.length < 2) || (cs.take 2).any (!isHex ·)) then
    [.at .invalidURLUnit (some ((s.drop index).take 3)) s index]
  else []

/-- `_parse_authority` (parse.py:3085-3125): the rest of the input, its position, whether `buffer` is empty, whether "@" was seen. -/
def authorityNotes (s : Str) (special : Bool) : Str → (index : Nat) → (bufferEmpty atSeen : Bool) → List Note
  | [], _, emp, at' => if at' && emp then [.plain .invalidCredentials s] else []
  | c :: cs, index, emp, at' =>
    if c = c!"@" then authorityNotes s special cs (index + 1) true true ++ [.at .invalidCredentials none s index]
    else if isAuthorityEnd special c then (if at' && emp then [.plain .invalidCredentials s] else [])
    else authorityNotes s special cs (index + 1) false at'

/-- `_parse_file` (parse.py:3148-3186). -/
def fileNotes (s : Str) (start : Nat) (base : Option Rec) : List Note :=
  match s.drop start with
  | [] => []
  | c :: cs =>
    if c = c!"/" then []
    else if c = c!"\\" then [.at .invalidReverseSolidus none s start]
    else if baseIsFile base && c != c!"?" && c != c!"#" && startsWithWindowsDriveLetter (c :: cs) then
      [.at .fileInvalidWindowsDriveLetter (some ((s.drop start).take 2)) s start]
    else []

/-- `_parse_file_host` (parse.py:3206-3237): the host read so far, in front of the rest at `index`. -/
def fileHostNotes (env : Env) (s : Str) (ov : Bool) (special : Bool) : Str → (index : Nat) → (buffer : Str) → List Note
  | [], index, buffer => finish index buffer
  | c :: cs, index, buffer =>
    if c = c!"/" || c = c!"\\" || c = c!"?" || c = c!"#" then finish index buffer
    else fileHostNotes env s ov special cs (index + 1) (buffer ++ [c])
where
  /-- parse.py:3209-3234 -/
  finish (index : Nat) (buffer : Str) : List Note :=
    if !ov && isWindowsDriveLetter buffer then
      [.at .fileInvalidWindowsDriveLetterHost (some buffer) s (index - buffer.length)]
    else if buffer.isEmpty then []
    else (hostParse env buffer (!special)).log.map .host

/-- a backslash, where one is reported (parse.py:3150-3158, 3254-3262, 3634-3642, 3803-3811, 3847-3855). -/
def backslashNote (s : Str) (start : Nat) : List Note :=
  if (s.drop start).head? = some c!"\\" then [.at .invalidReverseSolidus none s start] else []

/-- `_parse_fragment` (parse.py:3290-3322). -/
def fragmentNotes (s : Str) : Str → (index : Nat) → List Note
  | [], _ => []
  | c :: cs, index => fragmentNotes s cs (index + 1) ++ unitNote s index c cs

/-- `_parse_host` (parse.py:3352-3400). -/
def hostNotes (env : Env) (s : Str) (ov : Option PState) (url : Rec) : Str → (buffer : Str) → (inside : Bool) → List Note
  | [], buffer, _ => finish buffer
  | c :: cs, buffer, inside =>
    if c = c!":" && !inside then
      if buffer.isEmpty then [.plain .hostMissing s]
      else if ov = some .hostname then []
      else (hostParse env buffer (!url.isSpecial)).log.map .host
    else if isAuthorityEnd url.isSpecial c then finish buffer
    else hostNotes env s ov url cs (buffer ++ [c]) (if c = c!"[" then true else if c = c!"]" then false else inside)
where
  /-- parse.py:3371-3393 -/
  finish (buffer : Str) : List Note :=
    if url.isSpecial && buffer.isEmpty then [.plain .hostMissing s]
    else if ov.isSome && buffer.isEmpty && (url.includesCredentials || url.portTruthy) then []
    else (hostParse env buffer (!url.isSpecial)).log.map .host

/-- `_parse_no_scheme` (parse.py:3416-3428). -/
def noSchemeNotes (s : Str) (start : Nat) (base : Option Rec) : List Note :=
  match base with
  | none => [.plain .missingSchemeNonRelativeURL s]
  | some b => if b.hasOpaquePath && (s.drop start).head? != some c!"#" then [.plain .missingSchemeNonRelativeURL s] else []

/-- `_parse_opaque_path` (parse.py:3458-3502). -/
def opaqueNotes (s : Str) : Str → (index : Nat) → List Note
  | [], _ => []
  | c :: cs, index =>
    if c = c!"?" then [] else if c = c!"#" then []
    else opaqueNotes s cs (index + 1) ++ unitNote s index c cs

/-- `_parse_path` (parse.py:3519-3597). -/
def pathNotes (s : Str) (special ov : Bool) : Str → (index : Nat) → List Note
  | [], _ => []
  | c :: cs, index =>
    if c = c!"/" then pathNotes s special ov cs (index + 1)
    else if special && c = c!"\\" then pathNotes s special ov cs (index + 1) ++ [.at .invalidReverseSolidus none s index]
    else if !ov && c = c!"?" then [] else if !ov && c = c!"#" then []
    else pathNotes s special ov cs (index + 1) ++ unitNote s index c cs

/-- `_parse_port` (parse.py:3675-3711). -/
def portNotes (env : Env) (s : Str) (ov special : Bool) : Str → (buffer : Str) → List Note
  | [], buffer => finish buffer
  | c :: cs, buffer =>
    if isDigit c then portNotes env s ov special cs (buffer ++ [c])
    else if isAuthorityEnd special c || ov then finish buffer
    else [.plain .portInvalid s]
where
  /-- parse.py:3684-3695 -/
  finish (buffer : Str) : List Note :=
    match pyInt env 10 buffer with
    | none => []
    | some v => if !buffer.isEmpty && decide (v.toNat > 0xFFFF) then [.plain .portOutOfRange s] else []

/-- `_parse_query` (parse.py:3737-3782). -/
def queryNotes (s : Str) (ov : Bool) : Str → (index : Nat) → List Note
  | [], _ => []
  | c :: cs, index =>
    if !ov && c = c!"#" then [] else queryNotes s ov cs (index + 1) ++ unitNote s index c cs

/-- "//" is missing (parse.py:3928-3937, 4015-4023, 4046-4054). -/
def solidusNote (s : Str) (start : Nat) : List Note :=
  if (s.drop start).take 2 = u!"//" then []
  else [.at .specialSchemeMissingFollowingSolidus (some ((s.drop start).take 2)) s start]

/-- `_parse_scheme` (parse.py:3895-3938). -/
def schemeNotes (s : Str) (start : Nat) (ov : Option PState) : List Note :=
  match s.drop start with
  | [] => []
  | c :: cs =>
    if !isAlpha c then []
    else
      match schemeScan cs (start + 1) [c] with
      | none => []
      | some (buffer, index) => if ov.isNone && lower buffer == u!"file" then solidusNote s index else []

/-- `_parse_special_authority_ignore_slashes` (parse.py:3976-3992). -/
def ignoreNotes (s : Str) : Str → (index : Nat) → List Note
  | [], _ => []
  | c :: cs, index =>
    if c = c!"/" || c = c!"\\" then
      ignoreNotes s cs (index + 1) ++ [.at .specialSchemeMissingFollowingSolidus (some [c]) s index]
    else []

/-- the descriptions of one iteration of the `while` loop (parse.py:4197-4309), newest first. -/
def stepNotes (env : Env) (s : Str) (base : Option Rec) (ov : Option PState) (st : PState) (index : Nat) (url : Rec) : List Note :=
  match st with
  | .schemeStart => schemeNotes s index ov
  | .noScheme => noSchemeNotes s index base
  | .specialRelativeOrAuthority | .specialAuthoritySlashes => solidusNote s index
  | .pathOrAuthority => []
  | .relative =>
    match base with
    | none => []
    | some b => if b.scheme != u!"file" && b.isSpecial then backslashNote s index else []
  | .relativeSlash => if url.isSpecial then backslashNote s index else []
  | .specialAuthorityIgnoreSlashes => ignoreNotes s (s.drop index) index
  | .authority => authorityNotes s url.isSpecial (s.drop index) index true false
  | .host | .hostname =>
    if ov.isSome && url.scheme == u!"file" then [] else hostNotes env s ov url (s.drop index) [] false
  | .port => portNotes env s ov.isSome url.isSpecial (s.drop index) []
  | .file => fileNotes s index base
  | .fileSlash => backslashNote s index
  | .fileHost => fileHostNotes env s ov.isSome url.isSpecial (s.drop index) index []
  | .pathStart => if url.isSpecial then backslashNote s index else []
  | .path => if url.hasOpaquePath then [] else pathNotes s url.isSpecial ov.isSome (s.drop index) index
  | .opaquePath => opaqueNotes s (s.drop index) index
  | .query => queryNotes s ov.isSome (s.drop index) index
  | .fragment => fragmentNotes s (s.drop index) index
  | .scheme | .eof => []

/-- the `while` loop (parse.py:4197-4321) -/
def runNotes (env : Env) (e : Encoding) (s : Str) (base : Option Rec) (ov : Option PState) :
    (fuel : Nat) → PState → (index : Nat) → Rec → List Note → List Note
  | fuel, st, index, url, notes =>
    if st = .eof then notes
    else
      match fuel with
      | 0 => notes
      | fuel + 1 =>
        let notes := stepNotes env s base ov st index url ++ notes
        match step env e s base ov st index url with
        | ⟨.error _, _, _⟩ => notes
        | ⟨.ok (st', index'), url, _⟩ => runNotes env e s base ov fuel st' index' url notes

/-- `BasicURLParser.parse` (parse.py:4170-4195): all descriptions, newest first. -/
def parseNotes (env : Env) (urlstring : Str) (base : Option Rec := none) (e : Encoding := .utf8)
    (url0 : Option Rec := none) (ov : Option PState := none) : List Note :=
  let stripped := stripBoth isC0OrSpace urlstring
  let (s, notes) : Str × List Note :=
    match url0 with
    | some _ => (urlstring, [])
    | none => (stripped, if stripped = urlstring then [] else [.plain .invalidURLUnit urlstring])
  let s' := removeTabNewline s
  let notes := if s.any isTabNewline then .plain .invalidURLUnit s :: notes else notes
  runNotes env e s' base ov maxSteps (ov.getD .schemeStart) 0 (url0.getD {}) notes

end Urlstd
