/-
The parser in terms of the remaining input instead of an index, one definition per state, without
the validation log. `step_on` proves that this is what the model's states do; the later proofs about
the parser use these forms.
-/
import Verif.Parser

namespace Urlstd

/-- outcome of a state: next state, remaining input and record, or an exception -/
inductive SOut where
  | to (st : PState) (rest : Str) (url : Rec)
  | fail (e : Err) (url : Rec)
  deriving DecidableEq, Repr

/-- forget the log and turn the index into the remaining input -/
def Out.on (s : Str) (o : Out) : SOut :=
  match o with
  | ⟨.ok (st, i), url, _⟩ => .to st (s.drop i) url
  | ⟨.error e, url, _⟩ => .fail e url

@[simp] theorem Out.on_to (s : Str) (st : PState) (i : Nat) (url : Rec) (log : Log) :
    (Out.to st i url log).on s = .to st (s.drop i) url := rfl
@[simp] theorem Out.on_fail (s : Str) (e : Err) (url : Rec) (log : Log) :
    (Out.fail e url log).on s = .fail e url := rfl
theorem Out.on_ite (s : Str) (c : Prop) [Decidable c] (a b : Out) :
    (if c then a else b).on s = if c then a.on s else b.on s := by split <;> rfl

/-! ### authority -/

/-- split at the last occurrence -/
def splitAtLast (c : Nat) : Str → Option (Str × Str)
  | [] => none
  | x :: xs =>
    match splitAtLast c xs with
    | some (a, b) => some (x :: a, b)
    | none => if x = c then some ([], xs) else none

/-- append the percent-encoded username and password of a userinfo string -/
def addCreds (url : Rec) (ui : Str) : Rec :=
  match splitAtFirst c!":" ui with
  | none => { url with username := url.username ++ utf8PercentEncode ui safeUserinfo }
  | some (a, b) => { url with
      username := url.username ++ utf8PercentEncode a safeUserinfo
      password := url.password ++ utf8PercentEncode b safeUserinfo }

def notEnd (special : Bool) (c : Nat) : Bool := !isAuthorityEnd special c

def sAuthority (rest : Str) (url : Rec) : SOut :=
  let a := rest.takeWhile (notEnd url.isSpecial)
  match splitAtLast c!"@" a with
  | none => .to .host rest url
  | some (ui, h) =>
    if h.isEmpty then .fail .urlParse (addCreds url ui)
    else .to .host (h ++ rest.dropWhile (notEnd url.isSpecial)) (addCreds url ui)

/-! ### host -/

/-- the text of a host up to ":" outside brackets or the end of the authority, and what follows -/
def hostSpan (special : Bool) (inside : Bool) : Str → Str × Str
  | [] => ([], [])
  | c :: cs =>
    if (c = c!":" && !inside) || isAuthorityEnd special c then ([], c :: cs)
    else
      let r := hostSpan special (if c = c!"[" then true else if c = c!"]" then false else inside) cs
      (c :: r.1, r.2)

def sHostEnd (env : Env) (ov : Bool) (buffer rest : Str) (url : Rec) : SOut :=
  if url.isSpecial && buffer.isEmpty then .fail .urlParse url
  else if ov && buffer.isEmpty && (url.includesCredentials || url.portTruthy) then
    .to .eof rest url
  else
    match (hostParse env buffer (!url.isSpecial)).res with
    | .error e => .fail e url
    | .ok h => .to (if ov then .eof else .pathStart) rest { url with host := some h }

def sHostGo (env : Env) (ov : Option PState) (buffer rest : Str) (url : Rec) : SOut :=
  match rest with
  | [] => sHostEnd env ov.isSome buffer [] url
  | c :: cs =>
    if c = c!":" then
      if buffer.isEmpty then .fail .urlParse url
      else if ov = some .hostname then .to .eof (c :: cs) url
      else
        match (hostParse env buffer (!url.isSpecial)).res with
        | .error e => .fail e url
        | .ok h => .to .port cs { url with host := some h }
    else sHostEnd env ov.isSome buffer (c :: cs) url

def sHost (env : Env) (ov : Option PState) (rest : Str) (url : Rec) : SOut :=
  if ov.isSome && url.scheme == u!"file" then .to .fileHost rest url
  else
    let r := hostSpan url.isSpecial false rest
    sHostGo env ov r.1 r.2 url

/-! ### port -/

def sPortEnd (env : Env) (ov : Bool) (buffer rest : Str) (url : Rec) : SOut :=
  let next : PState := if ov then .eof else .pathStart
  if buffer.isEmpty then .to next rest url
  else
    match pyInt env 10 buffer with
    | none => .fail .valueError url
    | some v =>
      if v.toNat > 0xFFFF then .fail .urlParse url
      else .to next rest { url with port := if isDefaultPort url.scheme v.toNat then none else some v.toNat }

def sPortGo (env : Env) (ov : Bool) (buffer rest : Str) (url : Rec) : SOut :=
  match rest with
  | [] => sPortEnd env ov buffer [] url
  | c :: cs =>
    if isAuthorityEnd url.isSpecial c || ov then sPortEnd env ov buffer (c :: cs) url
    else .fail .urlParse url

def sPort (env : Env) (ov : Option PState) (rest : Str) (url : Rec) : SOut :=
  sPortGo env ov.isSome (rest.takeWhile isDigit) (rest.dropWhile isDigit) url

/-! ### file -/

def sFilePath (base : Option Rec) (rest : Str) (url : Rec) : SOut :=
  match base with
  | none => .to .path rest url
  | some b =>
    if b.scheme = u!"file" then
      let url := { url with host := b.host, path := b.path, query := b.query }
      match rest with
      | [] => .to .path [] url
      | c :: cs =>
        if c = c!"?" then .to .query cs { url with query := some [] }
        else if c = c!"#" then .to .fragment cs { url with fragment := some [] }
        else
          let url := { url with query := none }
          if !startsWithWindowsDriveLetter (c :: cs) then
            match shortenRec url with
            | some url => .to .path (c :: cs) url
            | none => .fail .assertionError url
          else .to .path (c :: cs) { url with path := .list [] }
    else .to .path rest url

def sFile (base : Option Rec) (rest : Str) (url : Rec) : SOut :=
  let url := { url with scheme := u!"file", host := some (.str []) }
  match rest with
  | c :: cs =>
    if c = c!"/" || c = c!"\\" then .to .fileSlash cs url else sFilePath base (c :: cs) url
  | [] => sFilePath base [] url

def sFileSlashPath (base : Option Rec) (rest : Str) (url : Rec) : SOut :=
  match base with
  | none => .to .path rest url
  | some b =>
    if b.scheme = u!"file" then
      let url := { url with host := b.host }
      match b.path with
      | .list (p0 :: _) =>
        if !startsWithWindowsDriveLetter rest && isNormalizedWindowsDriveLetter p0 then
          match url.path with
          | .list p => .to .path rest { url with path := .list (p ++ [p0]) }
          | .opaque _ => .fail .assertionError url
        else .to .path rest url
      | _ => .to .path rest url
    else .to .path rest url

def sFileSlash (base : Option Rec) (rest : Str) (url : Rec) : SOut :=
  match rest with
  | c :: cs =>
    if c = c!"/" || c = c!"\\" then .to .fileHost cs url else sFileSlashPath base (c :: cs) url
  | [] => sFileSlashPath base [] url

def notFileHostEnd (c : Nat) : Bool := !(c = c!"/" || c = c!"\\" || c = c!"?" || c = c!"#")

def sFileHostEnd (env : Env) (ov : Bool) (buffer rest : Str) (url : Rec) : SOut :=
  if !ov && isWindowsDriveLetter buffer then .to .path (buffer ++ rest) url
  else if buffer.isEmpty then
    .to (if ov then .eof else .pathStart) rest { url with host := some (.str []) }
  else
    match (hostParse env buffer (!url.isSpecial)).res with
    | .error e => .fail e url
    | .ok h =>
      .to (if ov then .eof else .pathStart) rest
        { url with host := some (if h = .str u!"localhost" then .str [] else h) }

def sFileHost (env : Env) (ov : Option PState) (rest : Str) (url : Rec) : SOut :=
  sFileHostEnd env ov.isSome (rest.takeWhile notFileHostEnd) (rest.dropWhile notFileHostEnd) url

/-! ### no scheme, relative -/

def sNoScheme (base : Option Rec) (rest : Str) (url : Rec) : SOut :=
  match base with
  | none => .fail .urlParse url
  | some b =>
    if b.hasOpaquePath && !(rest.head? == some c!"#") then .fail .urlParse url
    else if b.hasOpaquePath then
      .to .fragment rest.tail
        { url with scheme := b.scheme, path := b.path, query := b.query, fragment := some [] }
    else if b.scheme ≠ u!"file" then .to .relative rest url
    else .to .file rest url

/-- the components `_parse_relative` copies from the base -/
def copyBase (b : Rec) (url : Rec) : Rec :=
  { url with
    scheme := b.scheme, username := b.username, password := b.password, host := b.host, port := b.port
    path := b.path, query := b.query }

def sRelative (base : Option Rec) (rest : Str) (url : Rec) : SOut :=
  match base with
  | none => .fail .assertionError url
  | some b =>
    if b.scheme = u!"file" then .fail .assertionError url
    else
      match rest with
      | [] => .to .eof [] (copyBase b url)
      | c :: cs =>
        if c = c!"/" || (b.isSpecial && c = c!"\\") then .to .relativeSlash cs { url with scheme := b.scheme }
        else if c = c!"?" then .to .query cs { copyBase b url with query := some [] }
        else if c = c!"#" then .to .fragment cs { copyBase b url with fragment := some [] }
        else
          match shortenRec { copyBase b url with query := none } with
          | some url => .to .path (c :: cs) url
          | none => .fail .assertionError { copyBase b url with query := none }

def sRelativeSlash (base : Option Rec) (rest : Str) (url : Rec) : SOut :=
  let c := rest.head?
  if url.isSpecial && (c = some c!"\\" || c = some c!"/") then
    .to .specialAuthorityIgnoreSlashes rest.tail url
  else if c = some c!"/" then .to .authority rest.tail url
  else
    match base with
    | none => .fail .assertionError url
    | some b =>
      .to .path rest { url with
        username := b.username, password := b.password, host := b.host, port := b.port }

/-! ### opaque path, path -/

def notQF (c : Nat) : Bool := !(c = c!"?" || c = c!"#")

/-- after a path: start a query, a fragment, or stop in state `st` -/
def afterPath (st : PState) (rest : Str) (url : Rec) : SOut :=
  match rest with
  | [] => .to st [] url
  | c :: cs =>
    if c = c!"?" then .to .query cs { url with query := some [] }
    else .to .fragment cs { url with fragment := some [] }

def sOpaquePath (rest : Str) (url : Rec) : SOut :=
  afterPath .eof (rest.dropWhile notQF)
    { url with path :=
        url.path.addText ((rest.takeWhile notQF).flatMap fun c => utf8PercentEncode [c] safeC0) }

def isPathSep (special : Bool) (c : Nat) : Bool := c = c!"/" || (special && c = c!"\\")

/-- the pieces of a path text -/
def pathPieces (special : Bool) : Str → List Str
  | [] => [[]]
  | c :: cs =>
    if isPathSep special c then [] :: pathPieces special cs
    else
      match pathPieces special cs with
      | [] => [[c]]
      | p :: ps => (c :: p) :: ps

/-- add the pieces one after another -/
def addPieces (scheme : Str) : List Str → List Str → List Str
  | path, [] => path
  | path, [p] => addSegment scheme path p false
  | path, p :: ps => addPieces scheme (addSegment scheme path p true) ps

def pathText (ov : Bool) (rest : Str) : Str := if ov then rest else rest.takeWhile notQF
def pathRest (ov : Bool) (rest : Str) : Str := if ov then [] else rest.dropWhile notQF

def sPath (ov : Option PState) (rest : Str) (url : Rec) : SOut :=
  match url.path with
  | .opaque _ => .fail .attributeError url
  | .list p =>
    afterPath .opaquePath (pathRest ov.isSome rest)
      { url with path := .list (addPieces url.scheme p (pathPieces url.isSpecial (pathText ov.isSome rest))) }

def sPathOrAuthority (rest : Str) (url : Rec) : SOut :=
  if rest.head? = some c!"/" then .to .authority rest.tail url else .to .path rest url

def sPathStart (ov : Option PState) (rest : Str) (url : Rec) : SOut :=
  match rest with
  | [] =>
    if url.isSpecial then .to .path [] url
    else if ov.isSome && url.host.isNone then
      match url.path with
      | .list p => .to .eof [] { url with path := .list (p ++ [[]]) }
      | .opaque _ => .fail .attributeError url
    else .to .eof [] url
  | c :: cs =>
    if isPathSep url.isSpecial c then .to .path cs url
    else if url.isSpecial then .to .path (c :: cs) url
    else if ov.isNone && c = c!"?" then .to .query cs { url with query := some [] }
    else if ov.isNone && c = c!"#" then .to .fragment cs { url with fragment := some [] }
    else .to .path (c :: cs) url

/-! ### query, fragment -/

def notHash (c : Nat) : Bool := !(c = c!"#")

def queryText (ov : Bool) (rest : Str) : Str := if ov then rest else rest.takeWhile notHash
def queryRest (ov : Bool) (rest : Str) : Str := if ov then [] else rest.dropWhile notHash

/-- `_parse_query`'s encoding of the buffer -/
def encodeQuery (e : Encoding) (url : Rec) (buffer : Str) : Str :=
  stringPercentEncode buffer (if url.isSpecial then safeSpecialQuery else safeQuery)
    (if !url.isSpecial || url.scheme == u!"ws" || url.scheme == u!"wss" then .utf8 else e)

def sQuery (e : Encoding) (ov : Option PState) (rest : Str) (url : Rec) : SOut :=
  let b := queryText ov.isSome rest
  let r := queryRest ov.isSome rest
  if b.isEmpty && r.isEmpty then .to .fragment [] url
  else
    match url.query with
    | none => .fail .typeError url
    | some q =>
      let url := { url with query := some (q ++ encodeQuery e url b) }
      .to .fragment r.tail (if r.isEmpty then url else { url with fragment := some [] })

def sFragment (rest : Str) (url : Rec) : SOut :=
  if rest.isEmpty then .to .eof [] url
  else
    match url.fragment with
    | none => .fail .typeError url
    | some f => .to .eof [] { url with fragment := some (f ++ utf8PercentEncode rest safeFragment) }

/-! ### scheme -/

/-- the lower-cased scheme at the start of an input and what follows its ":" -/
def takeScheme (rest : Str) : Option (Str × Str) :=
  match rest with
  | [] => none
  | c :: cs =>
    if !isAlpha c then none
    else
      match cs.dropWhile isSchemeChar with
      | [] => none
      | d :: r => if d = c!":" then some (lower (c :: cs.takeWhile isSchemeChar), r) else none

/-- `_parse_scheme` under a state override, once the scheme is read -/
def overrideScheme (url : Rec) (buffer : Str) : Rec :=
  if schemeRefused url buffer then url
  else
    let url := { url with scheme := buffer }
    match url.port with
      | some p => if p != 0 && isDefaultPort url.scheme p then { url with port := none } else url
      | none => url

def sScheme (base : Option Rec) (ov : Option PState) (rest : Str) (url : Rec) : SOut :=
  match takeScheme rest with
  | none => if ov.isNone then .to .noScheme rest url else .fail .urlParse url
  | some (buffer, r) =>
    if ov.isSome then .to .eof r (overrideScheme url buffer)
    else
      let url := { url with scheme := buffer }
      if url.scheme = u!"file" then .to .file r url
      else if url.isSpecial then
        if (match base with | some b => b.scheme == url.scheme | none => false) then
          .to .specialRelativeOrAuthority r url
        else .to .specialAuthoritySlashes r url
      else if r.head? = some c!"/" then .to .pathOrAuthority r.tail url
      else .to .opaquePath r { url with path := .opaque [] }

def isSlash (c : Nat) : Bool := c = c!"/" || c = c!"\\"

def sSpecialAuthorityIgnoreSlashes (rest : Str) (url : Rec) : SOut :=
  .to .authority (rest.dropWhile isSlash) url

def sSpecialAuthoritySlashes (rest : Str) (url : Rec) : SOut :=
  if rest.take 2 = u!"//" then .to .specialAuthorityIgnoreSlashes (rest.drop 2) url
  else .to .specialAuthorityIgnoreSlashes rest url

def sSpecialRelativeOrAuthority (rest : Str) (url : Rec) : SOut :=
  if rest.take 2 = u!"//" then .to .specialAuthorityIgnoreSlashes (rest.drop 2) url
  else .to .relative rest url

/-! ### one step -/

def sstep (env : Env) (e : Encoding) (base : Option Rec) (ov : Option PState)
    (st : PState) (rest : Str) (url : Rec) : SOut :=
  match st with
  | .schemeStart => sScheme base ov rest url
  | .noScheme => sNoScheme base rest url
  | .specialRelativeOrAuthority => sSpecialRelativeOrAuthority rest url
  | .pathOrAuthority => sPathOrAuthority rest url
  | .relative => sRelative base rest url
  | .relativeSlash => sRelativeSlash base rest url
  | .specialAuthoritySlashes => sSpecialAuthoritySlashes rest url
  | .specialAuthorityIgnoreSlashes => sSpecialAuthorityIgnoreSlashes rest url
  | .authority => sAuthority rest url
  | .host | .hostname => sHost env ov rest url
  | .port => sPort env ov rest url
  | .file => sFile base rest url
  | .fileSlash => sFileSlash base rest url
  | .fileHost => sFileHost env ov rest url
  | .pathStart => sPathStart ov rest url
  | .path => sPath ov rest url
  | .opaquePath => sOpaquePath rest url
  | .query => sQuery e ov rest url
  | .fragment => sFragment rest url
  | .scheme | .eof => .fail .notImplemented url

/-- rank of a state; every step goes to a state of smaller rank -/
def PState.rank : PState → Nat
  | .schemeStart => 20
  | .noScheme => 19
  | .specialRelativeOrAuthority => 18
  | .pathOrAuthority => 17
  | .relative => 16
  | .relativeSlash => 15
  | .specialAuthoritySlashes => 14
  | .specialAuthorityIgnoreSlashes => 13
  | .authority => 12
  | .host => 11
  | .hostname => 11
  | .port => 10
  | .file => 9
  | .fileSlash => 8
  | .fileHost => 7
  | .pathStart => 6
  | .path => 5
  | .opaquePath => 4
  | .query => 3
  | .fragment => 2
  | .scheme => 1
  | .eof => 0

end Urlstd
