/-
The path lists of URL records as objects on a heap.

Every attribute of a `URLRecord` except `path` holds an immutable Python value (`str`, `int`, `None`
or a tuple), and the parser assigns attributes only of the record it was given as `url`, which
`parse_url` leaves to a fresh `URLRecord()` (parse.py:4172). The one thing two records can share is
the list object held by `path`. The main model (`Verif/Parser.lean`) treats the path as a value;
here the same statements are executed on list objects with identities, so that a missing
`copy.copy` is expressible.
-/
import Verif.Lemmas.Eval
import Verif.Url

namespace Urlstd

/-- the list objects; a list's identity is its position -/
abbrev Heap := List (List Str)

/-- the value of an attribute `path`: a string (immutable) or a reference to a list object -/
inductive PathRef where
  | str (s : Str)
  | obj (a : Nat)
  deriving DecidableEq, Repr

/-- the value a `path` attribute stands for -/
def Heap.read (h : Heap) : PathRef → Path
  | .str s => .opaque s
  | .obj a => .list (h.getD a [])

/-- the statements that assign or modify `url.path` -/
inductive PathStmt where
  /-- `url.path = []` (parse.py:1647, 2681, 3187) -/
  | newList
  /-- `url.path = ""` (parse.py:3953) -/
  | newStr
  /-- `url.path = copy.copy(base.path)` (parse.py:3162, 3436, 3818) -/
  | copy
  /-- `url.path = base.path`; the code has no such statement -/
  | share
  /-- `url.path.append(s)` (parse.py:3274, 3542, 3548, 3556, 3657) -/
  | append (s : Str)
  /-- `del path[-1]` (parse.py:1877) -/
  | delLast
  /-- `url.path += t` for a string `t` (parse.py:3499), which modifies a list in place -/
  | extend (t : Str)
  deriving DecidableEq, Repr

/-- One statement executed on the heap; `bp` is the value of `base.path`. -/
def PathStmt.exec (bp : PathRef) (p : PathStmt) (s : Heap × PathRef) : Heap × PathRef :=
  match p, s with
  | .newList, (h, _) => (h ++ [[]], .obj h.length)
  | .newStr, (h, _) => (h, .str [])
  | .copy, (h, _) =>
    match bp with
    | .str t => (h, .str t)
    | .obj a => (h ++ [h.getD a []], .obj h.length)
  | .share, (h, _) => (h, bp)
  | .append _, (h, .str t) => (h, .str t)
  | .append x, (h, .obj a) => (h.set a (h.getD a [] ++ [x]), .obj a)
  | .delLast, (h, .str t) => (h, .str t)
  | .delLast, (h, .obj a) => (h.set a (h.getD a []).dropLast, .obj a)
  | .extend x, (h, .str t) => (h, .str (t ++ x))
  | .extend x, (h, .obj a) => (h.set a (h.getD a [] ++ x.map fun c => [c]), .obj a)

/-- statements executed one after another -/
def execAll (bp : PathRef) (l : List PathStmt) (s : Heap × PathRef) : Heap × PathRef :=
  l.foldl (fun s p => p.exec bp s) s

/-! ### The statements each state executes -/

/-- `URLRecord.shorten_path` (parse.py:1864-1877) -/
def shortenStmts (scheme : Str) (path : List Str) : List PathStmt :=
  match path with
  | [] => []
  | [p] => if scheme == u!"file" && isNormalizedWindowsDriveLetter p then [] else [.delLast]
  | _ => [.delLast]

/-- `shorten_path` on a record whose path may be opaque: the assertion fails before any write -/
def shortenPathStmts (scheme : Str) : Path → List PathStmt
  | .opaque _ => []
  | .list p => shortenStmts scheme p

/-- the end of a path segment (parse.py:3536-3557) -/
def segmentStmts (scheme : Str) (path : List Str) (buffer : Str) (slash : Bool) : List PathStmt :=
  let b := utf8PercentEncode buffer safePath
  if isDoubleDot b then
    if slash then shortenStmts scheme path else shortenStmts scheme path ++ [.append []]
  else if isSingleDot b then
    if slash then [] else [.append []]
  else if scheme == u!"file" && path.isEmpty && isWindowsDriveLetter b then
    [.append [b.headD 0, c!":"]]
  else [.append b]

/-- `_parse_path` on the pieces of its text (parse.py:3505-3598) -/
def piecesStmts (scheme : Str) : List Str → List Str → List PathStmt
  | _, [] => []
  | path, [p] => segmentStmts scheme path p false
  | path, p :: ps =>
    segmentStmts scheme path p true ++ piecesStmts scheme (addSegment scheme path p true) ps

/-- The statements on `url.path` executed by one state of the parser, in order. -/
def pathStmts (base : Option Rec) (ov : Option PState) (st : PState) (rest : Str) (url : Rec) :
    List PathStmt :=
  match st with
  | .schemeStart =>
    match takeScheme rest with
    | none => []
    | some (buffer, r) =>
      if ov.isSome then []
      else if buffer = u!"file" then []
      else if isSpecialScheme buffer then []
      else if r.head? = some c!"/" then [] else [.newStr]
  | .noScheme =>
    match base with
    | none => []
    | some b =>
      if b.hasOpaquePath && !(rest.head? == some c!"#") then []
      else if b.hasOpaquePath then [.copy] else []
  | .relative =>
    match base with
    | none => []
    | some b =>
      if b.scheme = u!"file" then []
      else
        match rest with
        | [] => [.copy]
        | c :: _ =>
          if c = c!"/" || (b.isSpecial && c = c!"\\") then []
          else if c = c!"?" then [.copy]
          else if c = c!"#" then [.copy]
          else .copy :: shortenPathStmts b.scheme b.path
  | .file =>
    match rest with
    | [] =>
      match base with
      | none => []
      | some b => if b.scheme = u!"file" then [.copy] else []
    | c :: cs =>
      if c = c!"/" || c = c!"\\" then []
      else
        match base with
        | none => []
        | some b =>
          if b.scheme = u!"file" then
            if c = c!"?" then [.copy]
            else if c = c!"#" then [.copy]
            else if !startsWithWindowsDriveLetter (c :: cs) then
              .copy :: shortenPathStmts u!"file" b.path
            else [.copy, .newList]
          else []
  | .fileSlash =>
    if (match rest with | c :: _ => c = c!"/" || c = c!"\\" | [] => false) then []
    else
      match base with
      | none => []
      | some b =>
        if b.scheme = u!"file" then
          match b.path with
          | .list (p0 :: _) =>
            if !startsWithWindowsDriveLetter rest && isNormalizedWindowsDriveLetter p0 then
              [.append p0]
            else []
          | _ => []
        else []
  | .pathStart =>
    match rest with
    | [] => if url.isSpecial then [] else if ov.isSome && url.host.isNone then [.append []] else []
    | _ => []
  | .path =>
    match url.path with
    | .opaque _ => []
    | .list p => piecesStmts url.scheme p (pathPieces url.isSpecial (pathText ov.isSome rest))
  | .opaquePath => [.extend ((rest.takeWhile notQF).flatMap fun c => utf8PercentEncode [c] safeC0)]
  | _ => []

/-! ### The parser on the heap -/

/-- the outcome of a parse on the heap: what is returned or raised, the record, the heap and the
value of `url.path` -/
structure HeapOut where
  res : Except Err Unit
  url : Rec
  heap : Heap
  ref : PathRef

/-- The loop of `BasicURLParser.parse` (parse.py:4197-4309) executing the statements on paths on the heap. -/
def heapRun (env : Env) (e : Encoding) (base : Option Rec) (ov : Option PState) (bp : PathRef) :
    Nat → PState → Str → Rec → Heap × PathRef → HeapOut
  | fuel, st, rest, url, s =>
    if st = .eof then ⟨.ok (), url, s.1, s.2⟩
    else
      match fuel with
      | 0 => ⟨.error .outOfFuel, url, s.1, s.2⟩
      | fuel + 1 =>
        let s' := execAll bp (pathStmts base ov st rest url) s
        match sstep env e base ov st rest url with
        | .to st' rest' url' => heapRun env e base ov bp fuel st' rest' url' s'
        | .fail err url' => ⟨.error err, url', s'.1, s'.2⟩

/-- `BasicURLParser.parse(s, base)` on a heap: `URLRecord()` makes a new list (parse.py:1647, 4172). -/
def heapParse (env : Env) (s : Str) (base : Option Rec) (e : Encoding) (h : Heap) (bp : PathRef) : HeapOut :=
  heapRun env e base none bp 20 .schemeStart (prepared s none) {} (h ++ [[]], .obj h.length)

end Urlstd
