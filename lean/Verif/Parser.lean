/-
The basic URL parser (parse.py:2839-2863, 3060-4361).
-/
import Verif.Record

namespace Urlstd

/-- `URLParserState` (parse.py:2839-2863). -/
inductive PState where
  | eof | authority | fileHost | fileSlash | file | fragment | hostname | host | noScheme
  | opaquePath | pathOrAuthority | pathStart | path | port | query | relativeSlash | relative
  | schemeStart | scheme | specialAuthorityIgnoreSlashes | specialAuthoritySlashes
  | specialRelativeOrAuthority
  deriving DecidableEq, Repr, Inhabited

/-- What a `_parse_*` method does: its return value or exception, the record after it (attribute
assignments made before an exception stay), and the validation errors it records. -/
structure Out where
  res : Except Err (PState × Nat)
  url : Rec
  log : Log := []

/-- return `(state, index)` -/
def Out.to (st : PState) (index : Nat) (url : Rec) (log : Log := []) : Out := ⟨.ok (st, index), url, log⟩
/-- raise -/
def Out.fail (e : Err) (url : Rec) (log : Log := []) : Out := ⟨.error e, url, log⟩

/-- The "not a URL unit" checks made for every code point of a path, query or fragment, e.g.
parse.py:3294-3321; `cs` is the input behind `c`. -/
def unitLog (c : Nat) (cs : Str) : Log :=
  if !isUrlCP c && c != c!"%" then [.ev .invalidURLUnit]
  else if c == c!"%" && (decide (cs.length < 2) || (cs.take 2).any (!isHex ·)) then
    [.ev .invalidURLUnit]
  else []

/-- "/", "?", "#" or end of input, or "\" when special: the end of an authority or host
(parse.py:3114-3116, 3368-3370). -/
def isAuthorityEnd (special : Bool) (c : Nat) : Bool :=
  c == c!"/" || c == c!"?" || c == c!"#" || (special && c == c!"\\")

/-! ### authority state -/

/-- username and password collected from one "@" (parse.py:3093-3113); returns the record and
`password_token_seen`. -/
def authorityAt (buffer : Str) (atSeen pwSeen : Bool) (url : Rec) : Rec × Bool :=
  let buffer := if atSeen then u!"%40" ++ buffer else buffer
  let up : Str × Str × Bool :=
    if pwSeen then ([], buffer, true)
    else match splitAtFirst c!":" buffer with
      | none => (buffer, [], false)
      | some (a, b) => (a, b, true)
  ({ url with
      username := if up.1.isEmpty then url.username
        else url.username ++ utf8PercentEncode up.1 safeUserinfo
      password := if up.2.1.isEmpty then url.password
        else url.password ++ utf8PercentEncode up.2.1 safeUserinfo }, up.2.2)

/-- the end of the authority (parse.py:3117-3128); `index` is already past the terminator. -/
def authorityEnd (index : Nat) (buffer : Str) (atSeen : Bool) (url : Rec) (log : Log) : Out :=
  if atSeen && buffer.isEmpty then .fail .urlParse url (.ev .invalidCredentials :: log)
  else .to .host (index - (buffer.length + 1)) url log

/-- the loop of `_parse_authority` (parse.py:3083-3131). -/
def authorityLoop (special : Bool) : Str → (index : Nat) → (buffer : Str) →
    (atSeen pwSeen : Bool) → Rec → Log → Out
  | [], index, buffer, atSeen, _, url, log => authorityEnd (index + 1) buffer atSeen url log
  | c :: cs, index, buffer, atSeen, pwSeen, url, log =>
    if c = c!"@" then
      let r := authorityAt buffer atSeen pwSeen url
      authorityLoop special cs (index + 1) [] true r.2 r.1 (.ev .invalidCredentials :: log)
    else if isAuthorityEnd special c then authorityEnd (index + 1) buffer atSeen url log
    else authorityLoop special cs (index + 1) (buffer ++ [c]) atSeen pwSeen url log

/-- `_parse_authority` (parse.py:3068-3131). -/
def parseAuthority (s : Str) (start : Nat) (url : Rec) : Out :=
  authorityLoop url.isSpecial (s.drop start) start [] false false url []

/-! ### file states -/

/-- `base and base.scheme == "file"`. -/
def baseIsFile (base : Option Rec) : Bool :=
  match base with
  | some b => b.scheme == u!"file"
  | none => false

/-- `url.shorten_path()` on a record; `none` = AssertionError (parse.py:1866). -/
def shortenRec (url : Rec) : Option Rec :=
  match url.path with
  | .opaque _ => none
  | .list p => some { url with path := .list (shortenPath url.scheme p) }

/-- `_parse_file` (parse.py:3134-3189). -/
def parseFile (s : Str) (start : Nat) (base : Option Rec) (url : Rec) : Out :=
  let url := { url with scheme := u!"file", host := some (.str []) }
  let rest := s.drop start
  let toPath (url : Rec) : Out :=
    match base with
    | none => .to .path start url
    | some b =>
      if b.scheme = u!"file" then
        let url := { url with host := b.host, path := b.path, query := b.query }
        match rest with
        | [] => .to .path start url
        | c :: _ =>
          if c = c!"?" then .to .query (start + 1) { url with query := some [] }
          else if c = c!"#" then .to .fragment (start + 1) { url with fragment := some [] }
          else
            let url := { url with query := none }
            if !startsWithWindowsDriveLetter rest then
              match shortenRec url with
              | some url => .to .path start url
              | none => .fail .assertionError url
            else
              .to .path start { url with path := .list [] } [.ev .fileInvalidWindowsDriveLetter]
      else .to .path start url
  match rest with
  | c :: _ =>
    if c = c!"/" then .to .fileSlash (start + 1) url
    else if c = c!"\\" then .to .fileSlash (start + 1) url [.ev .invalidReverseSolidus]
    else toPath url
  | [] => toPath url

/-- `_parse_file_slash` (parse.py:3240-3275). -/
def parseFileSlash (s : Str) (start : Nat) (base : Option Rec) (url : Rec) : Out :=
  let rest := s.drop start
  let other : Out :=
    match base with
    | none => .to .path start url
    | some b =>
      if b.scheme = u!"file" then
        let url := { url with host := b.host }
        match b.path with
        | .list (p0 :: _) =>
          if !startsWithWindowsDriveLetter rest && isNormalizedWindowsDriveLetter p0 then
            match url.path with
            | .list p => .to .path start { url with path := .list (p ++ [p0]) }
            | .opaque _ => .fail .assertionError url
          else .to .path start url
        | _ => .to .path start url     -- `base.path[0]` of a string has length 1
      else .to .path start url
  match rest with
  | c :: _ =>
    if c = c!"/" then .to .fileHost (start + 1) url
    else if c = c!"\\" then .to .fileHost (start + 1) url [.ev .invalidReverseSolidus]
    else other
  | [] => other

/-- the end of the file host (parse.py:3209-3234); `index` is the position of the terminator. -/
def fileHostEnd (env : Env) (ov : Bool) (index : Nat) (buffer : Str) (url : Rec) : Out :=
  if !ov && isWindowsDriveLetter buffer then
    .to .path (index - buffer.length) url [.ev .fileInvalidWindowsDriveLetterHost]
  else if buffer.isEmpty then
    .to (if ov then .eof else .pathStart) index { url with host := some (.str []) }
  else
    match hostParse env buffer (!url.isSpecial) with
    | ⟨.error e, log⟩ => .fail e url log
    | ⟨.ok h, log⟩ =>
      let h := if h = .str u!"localhost" then .str [] else h
      .to (if ov then .eof else .pathStart) index { url with host := some h } log

/-- the loop of `_parse_file_host` (parse.py:3206-3237). -/
def fileHostLoop (env : Env) (ov : Bool) : Str → (index : Nat) → (buffer : Str) → Rec → Out
  | [], index, buffer, url => fileHostEnd env ov index buffer url
  | c :: cs, index, buffer, url =>
    if c = c!"/" || c = c!"\\" || c = c!"?" || c = c!"#" then fileHostEnd env ov index buffer url
    else fileHostLoop env ov cs (index + 1) (buffer ++ [c]) url

/-- `_parse_file_host` (parse.py:3192-3237). -/
def parseFileHost (env : Env) (s : Str) (start : Nat) (url : Rec) (ov : Option PState) : Out :=
  fileHostLoop env ov.isSome (s.drop start) start [] url

/-! ### fragment state -/

/-- validation errors of `_parse_fragment`'s loop -/
def unitsLog : Str → Log
  | [] => []
  | c :: cs => unitsLog cs ++ unitLog c cs

/-- `_parse_fragment` (parse.py:3278-3330): the loop collects the whole rest in `buffer`. -/
def parseFragment (s : Str) (start : Nat) (url : Rec) : Out :=
  let buffer := s.drop start
  if buffer.isEmpty then .to .eof (start + buffer.length) url
  else
    match url.fragment with
    | none => .fail .typeError url (unitsLog buffer)
    | some f =>
      .to .eof (start + buffer.length)
        { url with fragment := some (f ++ utf8PercentEncode buffer safeFragment) } (unitsLog buffer)

/-! ### host state -/

/-- a host that ended at a terminator other than ":" (parse.py:3371-3393); `index` is the
position of the terminator. -/
def hostEnd (env : Env) (ov : Bool) (index : Nat) (buffer : Str) (url : Rec) : Out :=
  if url.isSpecial && buffer.isEmpty then .fail .urlParse url [.ev .hostMissing]
  else if ov && buffer.isEmpty && (url.includesCredentials || url.portTruthy) then
    .to .eof index url
  else
    match hostParse env buffer (!url.isSpecial) with
    | ⟨.error e, log⟩ => .fail e url log
    | ⟨.ok h, log⟩ => .to (if ov then .eof else .pathStart) index { url with host := some h } log

/-- the loop of `_parse_host` (parse.py:3352-3400). -/
def hostLoop (env : Env) (ov : Option PState) : Str → (index : Nat) → (buffer : Str) →
    (inside : Bool) → Rec → Out
  | [], index, buffer, _, url => hostEnd env ov.isSome index buffer url
  | c :: cs, index, buffer, inside, url =>
    if c = c!":" && !inside then
      if buffer.isEmpty then .fail .urlParse url [.ev .hostMissing]
      else if ov = some .hostname then .to .eof index url
      else
        match hostParse env buffer (!url.isSpecial) with
        | ⟨.error e, log⟩ => .fail e url log
        | ⟨.ok h, log⟩ => .to .port (index + 1) { url with host := some h } log
    else if isAuthorityEnd url.isSpecial c then hostEnd env ov.isSome index buffer url
    else
      hostLoop env ov cs (index + 1) (buffer ++ [c])
        (if c = c!"[" then true else if c = c!"]" then false else inside) url

/-- `_parse_host` (parse.py:3333-3400). -/
def parseHost (env : Env) (s : Str) (start : Nat) (url : Rec) (ov : Option PState) : Out :=
  if ov.isSome && url.scheme == u!"file" then .to .fileHost start url
  else hostLoop env ov (s.drop start) start [] false url

/-! ### no scheme state -/

/-- `_parse_no_scheme` (parse.py:3403-3442). -/
def parseNoScheme (s : Str) (start : Nat) (base : Option Rec) (url : Rec) : Out :=
  match base with
  | none => .fail .urlParse url [.ev .missingSchemeNonRelativeURL]
  | some b =>
    let hash := (s.drop start).head? == some c!"#"
    if b.hasOpaquePath && !hash then .fail .urlParse url [.ev .missingSchemeNonRelativeURL]
    else if b.hasOpaquePath then
      .to .fragment (start + 1)
        { url with scheme := b.scheme, path := b.path, query := b.query, fragment := some [] }
    else if b.scheme ≠ u!"file" then .to .relative start url
    else .to .file start url

/-! ### opaque path state -/

/-- `url.path += text`: a string is extended, a list gets one element per character. -/
def Path.addText (p : Path) (text : Str) : Path :=
  match p with
  | .opaque s => .opaque (s ++ text)
  | .list l => .list (l ++ text.map fun c => [c])

/-- the loop of `_parse_opaque_path` (parse.py:3458-3502). -/
def opaqueLoop : Str → (index : Nat) → Rec → Log → Out
  | [], index, url, log => .to .eof index url log
  | c :: cs, index, url, log =>
    if c = c!"?" then .to .query (index + 1) { url with query := some [] } log
    else if c = c!"#" then .to .fragment (index + 1) { url with fragment := some [] } log
    else
      opaqueLoop cs (index + 1)
        { url with path := url.path.addText (utf8PercentEncode [c] safeC0) } (unitLog c cs ++ log)

/-- `_parse_opaque_path` (parse.py:3445-3502). -/
def parseOpaquePath (s : Str) (start : Nat) (url : Rec) : Out :=
  opaqueLoop (s.drop start) start url []

/-! ### path state -/

/-- The end of one path segment (parse.py:3536-3557): the effect on the path. `slash` tells
whether the segment is ended by "/" (or by "\" in a special URL). -/
def addSegment (scheme : Str) (path : List Str) (buffer : Str) (slash : Bool) : List Str :=
  let b := utf8PercentEncode buffer safePath
  if isDoubleDot b then
    if slash then shortenPath scheme path else shortenPath scheme path ++ [[]]
  else if isSingleDot b then
    if slash then path else path ++ [[]]
  else if scheme == u!"file" && path.isEmpty && isWindowsDriveLetter b then
    path ++ [[b.headD 0, c!":"]]
  else path ++ [b]

/-- the loop of `_parse_path` (parse.py:3519-3597); `ov` is `state_override is not None`.
Returns the path, the next state, the next index. -/
def pathLoop (scheme : Str) (ov : Bool) : Str → (index : Nat) → (buffer : Str) → List Str → Log →
    List Str × PState × Nat × Log
  | [], index, buffer, path, log => (addSegment scheme path buffer false, .opaquePath, index, log)
  | c :: cs, index, buffer, path, log =>
    if c = c!"/" then
      pathLoop scheme ov cs (index + 1) [] (addSegment scheme path buffer true) log
    else if isSpecialScheme scheme && c = c!"\\" then
      pathLoop scheme ov cs (index + 1) [] (addSegment scheme path buffer true)
        (.ev .invalidReverseSolidus :: log)
    else if !ov && c = c!"?" then
      (addSegment scheme path buffer false, .query, index + 1, log)
    else if !ov && c = c!"#" then
      (addSegment scheme path buffer false, .fragment, index + 1, log)
    else pathLoop scheme ov cs (index + 1) (buffer ++ [c]) path (unitLog c cs ++ log)

/-- `_parse_path` (parse.py:3505-3597).
Simplification: with an opaque path the code raises AttributeError or AssertionError at the first
segment that needs a list; here it raises at once (`C21_no_internal_error` shows that parsing never
does this, and the `pathname` setter returns early for opaque paths). -/
def parsePath (s : Str) (start : Nat) (url : Rec) (ov : Option PState) : Out :=
  match url.path with
  | .opaque _ => .fail .attributeError url
  | .list p =>
    match pathLoop url.scheme ov.isSome (s.drop start) start [] p [] with
    | (p', st, index, log) =>
      let url := { url with path := .list p' }
      let url := if st = .query then { url with query := some [] } else url
      let url := if st = .fragment then { url with fragment := some [] } else url
      .to st index url log

/-- `_parse_path_or_authority` (parse.py:3600-3615). -/
def parsePathOrAuthority (s : Str) (start : Nat) (url : Rec) : Out :=
  if (s.drop start).head? = some c!"/" then .to .authority (start + 1) url
  else .to .path start url

/-- `_parse_path_start` (parse.py:3618-3658). -/
def parsePathStart (s : Str) (start : Nat) (url : Rec) (ov : Option PState) : Out :=
  let c := (s.drop start).head?
  if url.isSpecial then
    if c = some c!"\\" then .to .path (start + 1) url [.ev .invalidReverseSolidus]
    else if c = some c!"/" then .to .path (start + 1) url
    else .to .path start url
  else if ov.isNone && c = some c!"?" then .to .query (start + 1) { url with query := some [] }
  else if ov.isNone && c = some c!"#" then
    .to .fragment (start + 1) { url with fragment := some [] }
  else
    match c with
    | some c => .to .path (if c = c!"/" then start + 1 else start) url
    | none =>
      if ov.isSome && url.host.isNone then
        match url.path with
        | .list p => .to .eof start { url with path := .list (p ++ [[]]) }
        | .opaque _ => .fail .attributeError url
      else .to .eof start url

/-! ### port state -/

/-- the end of the port (parse.py:3684-3703); `index` is the position of the terminator. -/
def portEnd (env : Env) (ov : Bool) (index : Nat) (buffer : Str) (url : Rec) : Out :=
  let next : PState := if ov then .eof else .pathStart
  if buffer.isEmpty then .to next index url
  else
    match pyInt env 10 buffer with
    | none => .fail .valueError url
    | some v =>
      let port := v.toNat
      if port > 0xFFFF then .fail .urlParse url [.ev .portOutOfRange]
      else
        .to next index
          { url with port := if isDefaultPort url.scheme port then none else some port }

/-- the loop of `_parse_port` (parse.py:3675-3711). -/
def portLoop (env : Env) (ov : Bool) : Str → (index : Nat) → (buffer : Str) → Rec → Out
  | [], index, buffer, url => portEnd env ov index buffer url
  | c :: cs, index, buffer, url =>
    if isDigit c then portLoop env ov cs (index + 1) (buffer ++ [c]) url
    else if isAuthorityEnd url.isSpecial c || ov then portEnd env ov index buffer url
    else .fail .urlParse url [.ev .portInvalid]

/-- `_parse_port` (parse.py:3661-3711). -/
def parsePort (env : Env) (s : Str) (start : Nat) (url : Rec) (ov : Option PState) : Out :=
  portLoop env ov.isSome (s.drop start) start [] url

/-! ### query state -/

/-- the loop of `_parse_query` (parse.py:3737-3783): the collected buffer, whether it ended at "#",
and the index behind it. -/
def queryLoop (ov : Bool) : Str → (index : Nat) → (buffer : Str) → Log → Str × Bool × Nat × Log
  | [], index, buffer, log => (buffer, false, index, log)
  | c :: cs, index, buffer, log =>
    if !ov && c = c!"#" then (buffer, true, index + 1, log)
    else queryLoop ov cs (index + 1) (buffer ++ [c]) (unitLog c cs ++ log)

/-- `_parse_query` (parse.py:3714-3783). -/
def parseQuery (e : Encoding) (s : Str) (start : Nat) (url : Rec) (ov : Option PState) : Out :=
  let e := if !url.isSpecial || url.scheme == u!"ws" || url.scheme == u!"wss" then .utf8 else e
  let safe := if url.isSpecial then safeSpecialQuery else safeQuery
  match queryLoop ov.isSome (s.drop start) start [] [] with
  | (buffer, hash, index, log) =>
    if buffer.isEmpty && !hash then .to .fragment index url log
    else
      match url.query with
      | none => .fail .typeError url log
      | some q =>
        let url := { url with query := some (q ++ stringPercentEncode buffer safe e) }
        .to .fragment index (if hash then { url with fragment := some [] } else url) log

/-! ### relative states -/

/-- `_parse_relative` (parse.py:3786-3830). -/
def parseRelative (s : Str) (start : Nat) (base : Option Rec) (url : Rec) : Out :=
  match base with
  | none => .fail .assertionError url
  | some b =>
    if b.scheme = u!"file" then .fail .assertionError url
    else
      let url := { url with scheme := b.scheme }
      let copied := { url with
        username := b.username, password := b.password, host := b.host, port := b.port
        path := b.path, query := b.query }
      match s.drop start with
      | [] => .to .eof start copied
      | c :: _ =>
        if c = c!"/" then .to .relativeSlash (start + 1) url
        else if url.isSpecial && c = c!"\\" then
          .to .relativeSlash (start + 1) url [.ev .invalidReverseSolidus]
        else if c = c!"?" then .to .query (start + 1) { copied with query := some [] }
        else if c = c!"#" then .to .fragment (start + 1) { copied with fragment := some [] }
        else
          match shortenRec { copied with query := none } with
          | some url => .to .path start url
          | none => .fail .assertionError { copied with query := none }

/-- `_parse_relative_slash` (parse.py:3833-3867). -/
def parseRelativeSlash (s : Str) (start : Nat) (base : Option Rec) (url : Rec) : Out :=
  let c := (s.drop start).head?
  if url.isSpecial && c = some c!"\\" then
    .to .specialAuthorityIgnoreSlashes (start + 1) url [.ev .invalidReverseSolidus]
  else if url.isSpecial && c = some c!"/" then .to .specialAuthorityIgnoreSlashes (start + 1) url
  else if c = some c!"/" then .to .authority (start + 1) url
  else
    match base with
    | none => .fail .assertionError url
    | some b =>
      .to .path start { url with
        username := b.username, password := b.password, host := b.host, port := b.port }

/-! ### scheme states -/

/-- a character of a scheme (parse.py:3897) -/
def isSchemeChar (c : Nat) : Bool := isAlnum c || (u!"+-.").contains c

/-- the loop of `_parse_scheme` up to ":" (parse.py:3895-3899): the buffer and the index behind the
":"; `none` when the scan ends at another character or at the end of the input. -/
def schemeScan : Str → (index : Nat) → (buffer : Str) → Option (Str × Nat)
  | [], _, _ => none
  | c :: cs, index, buffer =>
    if isSchemeChar c then schemeScan cs (index + 1) (buffer ++ [c])
    else if c = c!":" then some (buffer, index + 1)
    else none

/-- a new scheme that the state override must ignore (parse.py:3902-3920) -/
def schemeRefused (url : Rec) (buffer : Str) : Bool :=
  (url.isSpecial && !isSpecialScheme buffer) || (!url.isSpecial && isSpecialScheme buffer) ||
  ((url.includesCredentials || url.portTruthy) && buffer == u!"file") ||
  (url.scheme == u!"file" && url.hostNoneOrEmpty)

/-- `_parse_scheme` (parse.py:3870-3961). -/
def parseScheme (s : Str) (start : Nat) (base : Option Rec) (url : Rec) (ov : Option PState) : Out :=
  let bad : Out := if ov.isNone then .to .noScheme start url else .fail .urlParse url
  match s.drop start with
  | [] => bad
  | c :: cs =>
    if !isAlpha c then bad
    else
      match schemeScan cs (start + 1) [c] with
      | none => bad
      | some (buffer, index) =>
        let buffer := lower buffer
        if ov.isSome then
          if schemeRefused url buffer then .to .eof index url
          else
            let url := { url with scheme := buffer }
            .to .eof index
              (match url.port with
                | some p => if p != 0 && isDefaultPort url.scheme p then { url with port := none } else url
                | none => url)
        else
          let url := { url with scheme := buffer }
          let rest := s.drop index
          if url.scheme = u!"file" then
            .to .file index url
              (if rest.take 2 = u!"//" then [] else [.ev .specialSchemeMissingFollowingSolidus])
          else if url.isSpecial then
            if (match base with | some b => b.scheme == url.scheme | none => false) then
              .to .specialRelativeOrAuthority index url
            else .to .specialAuthoritySlashes index url
          else if rest.head? = some c!"/" then .to .pathOrAuthority (index + 1) url
          else .to .opaquePath index { url with path := .opaque [] }

/-- the loop of `_parse_special_authority_ignore_slashes` (parse.py:3976-3992). -/
def ignoreSlashes : Str → (index : Nat) → Log → Nat × Log
  | [], index, log => (index, log)
  | c :: cs, index, log =>
    if c = c!"/" || c = c!"\\" then
      ignoreSlashes cs (index + 1) (.ev .specialSchemeMissingFollowingSolidus :: log)
    else (index, log)

/-- `_parse_special_authority_ignore_slashes` (parse.py:3964-3993). -/
def parseSpecialAuthorityIgnoreSlashes (s : Str) (start : Nat) (url : Rec) : Out :=
  let r := ignoreSlashes (s.drop start) start []
  .to .authority r.1 url r.2

/-- `_parse_special_authority_slashes` (parse.py:3996-4024). -/
def parseSpecialAuthoritySlashes (s : Str) (start : Nat) (url : Rec) : Out :=
  if (s.drop start).take 2 = u!"//" then .to .specialAuthorityIgnoreSlashes (start + 2) url
  else .to .specialAuthorityIgnoreSlashes start url [.ev .specialSchemeMissingFollowingSolidus]

/-- `_parse_special_relative_or_authority` (parse.py:4027-4055). -/
def parseSpecialRelativeOrAuthority (s : Str) (start : Nat) (url : Rec) : Out :=
  if (s.drop start).take 2 = u!"//" then .to .specialAuthorityIgnoreSlashes (start + 2) url
  else .to .relative start url [.ev .specialSchemeMissingFollowingSolidus]

/-! ### the driver -/

/-- one iteration of the `while` loop (parse.py:4197-4309). -/
def step (env : Env) (e : Encoding) (s : Str) (base : Option Rec) (ov : Option PState)
    (st : PState) (index : Nat) (url : Rec) : Out :=
  match st with
  | .schemeStart => parseScheme s index base url ov
  | .noScheme => parseNoScheme s index base url
  | .specialRelativeOrAuthority => parseSpecialRelativeOrAuthority s index url
  | .pathOrAuthority => parsePathOrAuthority s index url
  | .relative => parseRelative s index base url
  | .relativeSlash => parseRelativeSlash s index base url
  | .specialAuthoritySlashes => parseSpecialAuthoritySlashes s index url
  | .specialAuthorityIgnoreSlashes => parseSpecialAuthorityIgnoreSlashes s index url
  | .authority => parseAuthority s index url
  | .host | .hostname => parseHost env s index url ov
  | .port => parsePort env s index url ov
  | .file => parseFile s index base url
  | .fileSlash => parseFileSlash s index base url
  | .fileHost => parseFileHost env s index url ov
  | .pathStart => parsePathStart s index url ov
  | .path => parsePath s index url ov
  | .opaquePath => parseOpaquePath s index url
  | .query => parseQuery e s index url ov
  | .fragment => parseFragment s index url
  | .scheme | .eof => .fail .notImplemented url

/-- Result of `BasicURLParser.parse`: the exception or normal return, the record `url` (returned,
or left behind in the caller's object when an exception is raised), the validation errors. -/
structure ParseOut where
  res : Except Err Unit
  url : Rec
  log : Log

/-- the `while state != EOF` loop (parse.py:4197-4321). The fuel bounds the number of iterations;
`C20_loop_terminates` and `C20_basicParse_is_loop` show that `maxSteps` is never exhausted. -/
def run (env : Env) (e : Encoding) (s : Str) (base : Option Rec) (ov : Option PState) :
    (fuel : Nat) → PState → (index : Nat) → Rec → Log → ParseOut
  | fuel, st, index, url, log =>
    if st = .eof then ⟨.ok (), url, log⟩
    else
      match fuel with
      | 0 => ⟨.error .outOfFuel, url, log⟩
      | fuel + 1 =>
        match step env e s base ov st index url with
        | ⟨.error err, url, log'⟩ => ⟨.error err, url, log' ++ log⟩
        | ⟨.ok (st', index'), url, log'⟩ => run env e s base ov fuel st' index' url (log' ++ log)

/-- loop bound used by `basicParse` (the states form an acyclic graph of 20 ranks) -/
def maxSteps : Nat := 24

/-- remove ASCII tab and newline (parse.py:55, 4184-4190). -/
def removeTabNewline (s : Str) : Str := s.filter (!isTabNewline ·)

/-- `BasicURLParser.parse` (parse.py:4058-4322). `url0 = none` is the call without `url`. -/
def basicParse (env : Env) (urlstring : Str) (base : Option Rec := none) (e : Encoding := .utf8)
    (url0 : Option Rec := none) (ov : Option PState := none) : ParseOut :=
  let stripped := stripBoth isC0OrSpace urlstring
  let (s, log) : Str × Log :=
    match url0 with
    | some _ => (urlstring, [])
    | none => (stripped, if stripped = urlstring then [] else [.ev .invalidURLUnit])
  let s' := removeTabNewline s
  let log := if s.any isTabNewline then .ev .invalidURLUnit :: log else log
  run env e s' base ov maxSteps (ov.getD .schemeStart) 0 (url0.getD {}) log

/-- `BasicURLParser.parse` without `url`: only the returned record is observable. -/
def ParseOut.toExcept (o : ParseOut) : Except Err Rec :=
  match o.res with
  | .ok _ => .ok o.url
  | .error e => .error e

/-- `base` argument of `parse_url`: `None`, a string, or a record. -/
inductive BaseArg where
  | none
  | str (s : Str)
  | record (r : Rec)

/-- `parse_url` (parse.py:4325-4361). -/
def parseUrl (env : Env) (urlstring : Str) (base : BaseArg := .none) (e : Encoding := .utf8) :
    Res Rec :=
  let go (b : Option Rec) (log : Log) : Res Rec :=
    let o := basicParse env urlstring b e
    ⟨o.toExcept, o.log ++ log⟩
  match base with
  | .none => go none []
  | .record r => go (some r) []
  | .str bs =>
    let o := basicParse env bs none e
    match o.toExcept with
    | .error err => ⟨.error err, o.log⟩
    | .ok r => go (some r) o.log

end Urlstd
