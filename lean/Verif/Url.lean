/-
Origins, `URLSearchParams`, `URL`, `urlparse` (parse.py:424-494, 1552-1625, 1776-1805, 1880-2836).
-/
import Verif.Parser

namespace Urlstd

/-- the environment of calls that do not pass `validity=` -/
def Env.quiet (env : Env) : Env := { env with validity := false }
/-- the environment of calls that pass `validity=` -/
def Env.recording (env : Env) : Env := { env with validity := true }

/-! ### Origin (parse.py:1552-1625, 1776-1805) -/

/-- `Origin`. -/
structure Origin where
  scheme : Str
  host : Option Host
  port : Option Nat
  domain : Option Str
  deriving DecidableEq, Repr

/-- `Origin.__str__` (parse.py:1567-1577). -/
def Origin.toStr (o : Origin) : Str :=
  o.scheme ++ u!"://" ++ (match o.host with | none => [] | some h => hostSerialize h) ++
  (match o.port with | none => [] | some p => c!":" :: natDec p)

/-- `Origin.is_same_origin` (parse.py:1579-1596). -/
def Origin.isSameOrigin (a b : Origin) : Bool :=
  a.scheme == b.scheme && a.host == b.host && a.port == b.port

/-- `Origin.is_same_origin_domain` (parse.py:1598-1625). -/
def Origin.isSameOriginDomain (a b : Origin) : Bool :=
  (a.scheme == b.scheme &&
    (match a.domain with | none => false | some d => !d.isEmpty) && a.domain == b.domain) ||
  (a.isSameOrigin b && a.domain.isNone && b.domain.isNone)

/-- the tuple-origin schemes (parse.py:1804-1805) -/
def hasTupleOrigin (scheme : Str) : Bool :=
  [u!"ftp", u!"http", u!"https", u!"ws", u!"wss"].contains scheme

/-- `URLRecord.origin` for a scheme other than "blob" (parse.py:1804-1806). -/
def Rec.originNonBlob (u : Rec) : Option Origin :=
  if hasTupleOrigin u.scheme then some ⟨u.scheme, u.host, u.port, none⟩ else none

/-- `len(path) > 0`. -/
def Path.nonEmpty : Path → Bool
  | .opaque s => !s.isEmpty
  | .list l => !l.isEmpty

/-- `URLRecord.origin` (parse.py:1776-1806). The recursive call is made on a record whose scheme is
http, https or file, hence on `originNonBlob`. Exceptions other than URLParseError propagate. -/
def Rec.origin (env : Env) (u : Rec) : Except Err (Option Origin) :=
  if u.scheme = u!"blob" then
    if u.path.nonEmpty then
      match (basicParse env.quiet (serializePath u.path)).toExcept with
      | .ok p =>
        if p.scheme = u!"http" || p.scheme = u!"https" || p.scheme = u!"file" then
          .ok p.originNonBlob
        else .ok none
      | .error e => if e.isURLParseError then .ok none else .error e
    else .ok none
  else .ok u.originNonBlob

/-! ### URLSearchParams (parse.py:1880-2320) -/

/-- a parameter value: `str`, or a number given by its `str()` -/
inductive ParamVal where
  | str (s : Str)
  | num (repr : Str)
  deriving DecidableEq, Repr

/-- `str(value)`. -/
def ParamVal.toStr : ParamVal → Str
  | .str s => s
  | .num r => r

/-- `s == value`; a number is never equal to a string. -/
def ParamVal.eqStr : ParamVal → Str → Bool
  | .str v, s => s == v
  | .num _, _ => false

/-- the list of name-value pairs `_list` -/
abbrev Params := List (Str × Str)

/-- `utf8_decode(utf8_encode(s))`. -/
def usv (s : Str) : Str := utf8Decode (utf8Encode s)
/-- `utf8_decode(string_percent_decode(s))`. -/
def decName (s : Str) : Str := utf8Decode (stringPercentDecode s)

/-- `URLSearchParams(list of pairs)` (parse.py:1951-1963). -/
def spOfPairs (init : List (ParamVal × ParamVal)) : Params :=
  init.map fun nv => (usv nv.1.toStr, usv nv.2.toStr)

/-- `temp[k] = v` on a dict kept in insertion order. -/
def dictSet (k v : Str) : Params → Params
  | [] => [(k, v)]
  | kv :: rest => if kv.1 = k then (kv.1, v) :: rest else kv :: dictSet k v rest

/-- `URLSearchParams(dict)` (parse.py:1964-1972); the argument is the dict's item list. -/
def spOfDict (init : List (ParamVal × ParamVal)) : Params :=
  init.foldl (fun acc nv => dictSet (usv nv.1.toStr) (usv nv.2.toStr) acc) []

/-- `URLSearchParams(str)` (parse.py:1981-1983). -/
def spOfStr (init : Str) : Params :=
  match init with
  | 63 :: rest => parseQsl (utf8Encode rest)      -- "?"
  | _ => parseQsl (utf8Encode init)

/-- `URLSearchParams._serialize_query` / `__str__` (parse.py:2073-2090). -/
def spToStr (l : Params) : Str := urlencode l

/-- `URLSearchParams(URLSearchParams)` (parse.py:1976-1977). -/
def spOfSp (l : Params) : Params := spOfStr (spToStr l)

/-- the list `attach` computes from a record (parse.py:2123-2131). -/
def spOfQuery (q : Option Str) : Params := parseQsl (utf8Encode (q.getD []))

/-- `append` on the list (parse.py:2118-2120). -/
def spAppend (l : Params) (name : Str) (value : ParamVal) : Params :=
  l ++ [(decName name, decName value.toStr)]

/-- the test in `delete`/`has`: name matches and the value, if given, is equal. -/
def spMatch (name : Str) (value : Option ParamVal) (nv : Str × Str) : Bool :=
  nv.1 == name && (match value with | none => true | some v => v.eqStr nv.2)

/-- the loop of `delete` over `reversed(list(enumerate(self._list)))` (parse.py:2158-2162);
`snap` is the snapshot, the counter runs from `len(snap)` down. -/
def spDeleteLoop (name : Str) (value : Option ParamVal) (snap : Params) : Nat → Params → Params
  | 0, l => l
  | i + 1, l =>
    match snap[i]? with
    | some nv => spDeleteLoop name value snap i (if spMatch name value nv then l.eraseIdx i else l)
    | none => spDeleteLoop name value snap i l

/-- `delete` on the list (parse.py:2133-2163). -/
def spDelete (l : Params) (name : Str) (value : Option ParamVal) : Params :=
  spDeleteLoop (decName name) value l l.length l

/-- `get` (parse.py:2176-2196). -/
def spGet (l : Params) (name : Str) : Option Str :=
  go (decName name) l
where
  go (n : Str) : Params → Option Str
    | [] => none
    | nv :: rest => if nv.1 = n then some nv.2 else go n rest

/-- `get_all` (parse.py:2198-2222). -/
def spGetAll (l : Params) (name : Str) : List Str :=
  (l.filter fun nv => nv.1 == decName name).map Prod.snd

/-- `has` (parse.py:2224-2244). -/
def spHas (l : Params) (name : Str) (value : Option ParamVal) : Bool :=
  go (decName name) l
where
  go (n : Str) : Params → Bool
    | [] => false
    | nv :: rest => if spMatch n value nv then true else go n rest

/-- `name in params` (parse.py:2002-2021). -/
def spContains (l : Params) (name : Str) : Bool := (spGet l name).isSome

/-- first index whose name is `n` (parse.py:2275-2279). -/
def findName (n : Str) : Params → Nat → Option Nat
  | [], _ => none
  | nv :: rest, i => if nv.1 = n then some i else findName n rest (i + 1)

/-- `while index > found: if items[index][0] == name: del items[index]; index -= 1`
(parse.py:2283-2287); the first argument is `index - found`. -/
def spSetLoop (n : Str) (found : Nat) : Nat → Params → Params
  | 0, items => items
  | k + 1, items =>
    match items[found + k + 1]? with
    | some nv => spSetLoop n found k (if nv.1 = n then items.eraseIdx (found + k + 1) else items)
    | none => spSetLoop n found k items

/-- `set` on the list (parse.py:2254-2287). -/
def spSet (l : Params) (name : Str) (value : ParamVal) : Params :=
  let n := decName name
  let v := decName value.toStr
  match findName n l 0 with
  | none => l ++ [(n, v)]
  | some found =>
    let items := l.set found (n, v)
    spSetLoop n found (items.length - 1 - found) items

/-- lexicographic comparison of code unit sequences (`icu.UnicodeString.__lt__`). -/
def ltUnits : List Nat → List Nat → Bool
  | _, [] => false
  | [], _ :: _ => true
  | a :: as, b :: bs => if a < b then true else if b < a then false else ltUnits as bs

/-- `u16len` (parse.py:367-368). -/
def u16len (s : Str) : Nat := (s.map fun c => if c ≤ 0xFFFF then 1 else 2).sum

/-- The sort key `icu.UnicodeString(x, u16len(x))` (parse.py:2307-2310): the first `u16len(x)` code
units of the UTF-16 form of `x`. -/
def sortKey (s : Str) : List Nat := (utf16Units s).take (u16len s)

/-- insert keeping the order; the new element comes before equal ones -/
def insertByName (x : Str × Str) : Params → Params
  | [] => [x]
  | y :: ys =>
    if ltUnits (sortKey y.1) (sortKey x.1) then y :: insertByName x ys else x :: y :: ys

/-- `sort` on the list (parse.py:2290-2311). CPython's `list.sort` is a stable sort, so its result
is the unique stable rearrangement; here it is computed by insertion from the right. -/
def spSort : Params → Params
  | [] => []
  | x :: xs => insertByName x (spSort xs)

/-- `_update` on the attached record (parse.py:2092-2101). -/
def spUpdate (l : Params) (u : Rec) : Rec :=
  let q := spToStr l
  if q.isEmpty then potentiallyRstrip { u with query := none } else { u with query := some q }

/-! ### URL (parse.py:2323-2836) -/

/-- A `URL` object: `_url` and the list of `_query`, whose `_url` is always this object's `_url`
(parse.py:2387-2388, 2601-2602). -/
structure URLObj where
  url : Rec
  params : Params
  deriving DecidableEq, Repr

/-- the `base` argument of `URL`: `None`, a string, or a `URL` -/
inductive UrlBase where
  | none
  | str (s : Str)
  | url (o : URLObj)

/-- `base._url if isinstance(base, URL) else base` (parse.py:2384-2386). -/
def UrlBase.arg : UrlBase → BaseArg
  | .none => .none
  | .str s => .str s
  | .url o => .record o.url

/-- `URL.__init__` (parse.py:2383-2388). -/
def URLObj.new (env : Env) (url : Str) (base : UrlBase := .none) : Except Err URLObj :=
  match (parseUrl env.quiet url base.arg).res with
  | .ok r => .ok ⟨r, spOfQuery r.query⟩
  | .error e => .error e

/-- `URL.can_parse` (parse.py:2433-2466). -/
def canParse (env : Env) (url : Str) (base : UrlBase := .none) : Res Bool :=
  match parseUrl env.recording url base.arg with
  | ⟨.ok _, log⟩ => .ok true log
  | ⟨.error e, log⟩ => if e.isURLParseError then .ok false log else .err e log

/-- `href` getter (parse.py:2597). -/
def URLObj.href (o : URLObj) : Str := o.url.serialize
/-- `protocol` getter (parse.py:2740). -/
def URLObj.protocol (o : URLObj) : Str := o.url.scheme ++ u!":"
/-- `username` getter (parse.py:2828). -/
def URLObj.username (o : URLObj) : Str := o.url.username
/-- `password` getter (parse.py:2645). -/
def URLObj.password (o : URLObj) : Str := o.url.password
/-- `host` getter (parse.py:2536-2543). -/
def URLObj.host (o : URLObj) : Str :=
  match o.url.host with
  | none => []
  | some h => hostSerialize h ++ o.url.serializePort
/-- `hostname` getter (parse.py:2573). -/
def URLObj.hostname (o : URLObj) : Str := o.url.serializeHost
/-- `port` getter (parse.py:2707-2710). -/
def URLObj.port (o : URLObj) : Str := match o.url.port with | none => [] | some p => natDec p
/-- `pathname` getter (parse.py:2675). -/
def URLObj.pathname (o : URLObj) : Str := serializePath o.url.path
/-- `search` getter (parse.py:2766-2769). -/
def URLObj.search (o : URLObj) : Str :=
  match o.url.query with
  | none => []
  | some q => if q.isEmpty then [] else c!"?" :: q
/-- `hash` getter (parse.py:2496-2499). -/
def URLObj.hash (o : URLObj) : Str :=
  match o.url.fragment with
  | none => []
  | some f => if f.isEmpty then [] else c!"#" :: f
/-- `origin` getter (parse.py:2621-2624). -/
def URLObj.origin (env : Env) (o : URLObj) : Except Err Str :=
  match o.url.origin env.quiet with
  | .ok none => .ok u!"null"
  | .ok (some x) => .ok x.toStr
  | .error e => .error e

/-- outcome of a mutating call: exception or normal return, and the object afterwards -/
abbrev SetOut := Except Err Unit × URLObj

/-- `BasicURLParser.parse(value, url=self._url, state_override=ov)`. -/
def setterParse (env : Env) (o : URLObj) (url : Rec) (value : Str) (ov : PState) : SetOut :=
  let r := basicParse env.quiet value none .utf8 (some url) (some ov)
  (r.res, { o with url := r.url })

/-- drop one leading character `c` -/
def dropLead (c : Nat) (s : Str) : Str :=
  match s with
  | x :: rest => if x = c then rest else s
  | [] => s

/-- `hash` setter (parse.py:2501-2513). -/
def setHash (env : Env) (o : URLObj) (value : Str) : SetOut :=
  if value.isEmpty then
    (.ok (), { o with url := potentiallyRstrip { o.url with fragment := none } })
  else setterParse env o { o.url with fragment := some [] } (dropLead c!"#" value) .fragment

/-- `host` setter (parse.py:2545-2551). -/
def setHost (env : Env) (o : URLObj) (value : Str) : SetOut :=
  if o.url.hasOpaquePath then (.ok (), o) else setterParse env o o.url value .host

/-- `hostname` setter (parse.py:2575-2581). -/
def setHostname (env : Env) (o : URLObj) (value : Str) : SetOut :=
  if o.url.hasOpaquePath then (.ok (), o) else setterParse env o o.url value .hostname

/-- `href` setter (parse.py:2599-2602). -/
def setHref (env : Env) (o : URLObj) (value : Str) : SetOut :=
  match (basicParse env.quiet value).toExcept with
  | .ok r => (.ok (), ⟨r, spOfQuery r.query⟩)
  | .error e => (.error e, o)

/-- `password` setter (parse.py:2647-2653). -/
def setPassword (o : URLObj) (value : Str) : SetOut :=
  if o.url.cannotHaveUPP then (.ok (), o)
  else (.ok (), { o with url := { o.url with password := utf8PercentEncode value safeUserinfo } })

/-- `pathname` setter (parse.py:2677-2686). -/
def setPathname (env : Env) (o : URLObj) (value : Str) : SetOut :=
  if o.url.hasOpaquePath then (.ok (), o)
  else setterParse env o { o.url with path := .list [] } value .pathStart

/-- `port` setter (parse.py:2712-2721). -/
def setPort (env : Env) (o : URLObj) (value : Str) : SetOut :=
  if o.url.cannotHaveUPP then (.ok (), o)
  else if value.isEmpty then (.ok (), { o with url := { o.url with port := none } })
  else setterParse env o o.url value .port

/-- `protocol` setter (parse.py:2742-2748). -/
def setProtocol (env : Env) (o : URLObj) (value : Str) : SetOut :=
  setterParse env o o.url (value ++ u!":") .schemeStart

/-- `search` setter (parse.py:2771-2784). -/
def setSearch (env : Env) (o : URLObj) (value : Str) : SetOut :=
  if value.isEmpty then
    let u := potentiallyRstrip { o.url with query := none }
    (.ok (), ⟨u, spOfQuery u.query⟩)
  else
    match setterParse env o { o.url with query := some [] } (dropLead c!"?" value) .query with
    | (.ok _, o') => (.ok (), { o' with params := spOfQuery o'.url.query })
    | (.error e, o') => (.error e, o')

/-- `username` setter (parse.py:2830-2836). -/
def setUsername (o : URLObj) (value : Str) : SetOut :=
  if o.url.cannotHaveUPP then (.ok (), o)
  else (.ok (), { o with url := { o.url with username := utf8PercentEncode value safeUserinfo } })

/-- a mutation of `url.search_params` -/
def spMutate (o : URLObj) (l : Params) : SetOut := (.ok (), ⟨spUpdate l o.url, l⟩)

/-- Every mutating operation on a `URL` and on its `search_params`. -/
inductive Op where
  | hash (v : Str) | host (v : Str) | hostname (v : Str) | href (v : Str) | password (v : Str)
  | pathname (v : Str) | port (v : Str) | protocol (v : Str) | search (v : Str) | username (v : Str)
  | spAppend (n : Str) (v : ParamVal) | spDelete (n : Str) (v : Option ParamVal)
  | spSet (n : Str) (v : ParamVal) | spSort
  deriving DecidableEq, Repr

/-- perform one operation -/
def applyOp (env : Env) (o : URLObj) : Op → SetOut
  | .hash v => setHash env o v
  | .host v => setHost env o v
  | .hostname v => setHostname env o v
  | .href v => setHref env o v
  | .password v => setPassword o v
  | .pathname v => setPathname env o v
  | .port v => setPort env o v
  | .protocol v => setProtocol env o v
  | .search v => setSearch env o v
  | .username v => setUsername o v
  | .spAppend n v => spMutate o (Urlstd.spAppend o.params n v)
  | .spDelete n v => spMutate o (Urlstd.spDelete o.params n v)
  | .spSet n v => spMutate o (Urlstd.spSet o.params n v)
  | .spSort => spMutate o (Urlstd.spSort o.params)

/-- a history of operations; exceptions are caught by the caller, who goes on with the object -/
def applyOps (env : Env) (o : URLObj) (ops : List Op) : URLObj :=
  ops.foldl (fun o op => (applyOp env o op).2) o

/-! ### urlparse (parse.py:424-494) -/

/-- `urllib.parse.ParseResult`. -/
structure ParseResult where
  scheme : Str
  netloc : Str
  path : Str
  params : Str
  query : Str
  fragment : Str
  deriving DecidableEq, Repr

/-- the part of `urlparse` after `parse_url` (parse.py:463-494). -/
def Rec.toParseResult (u : Rec) (allowFragments : Bool) : ParseResult :=
  let netloc := u.serializeCredentials ++ u.serializeHost ++ u.serializePort
  let pp := splitFirst c!";" (serializePath u.path)
  let query := u.query.getD []
  if allowFragments then ⟨u.scheme, netloc, pp.1, pp.2, query, u.fragment.getD []⟩
  else
    let fragment :=
      match u.fragment with
      | some f => if f.isEmpty then [] else c!"#" :: f
      | none => []
    if !query.isEmpty then ⟨u.scheme, netloc, pp.1, pp.2, query ++ fragment, []⟩
    else if !pp.2.isEmpty then ⟨u.scheme, netloc, pp.1, pp.2 ++ fragment, query, []⟩
    else ⟨u.scheme, netloc, pp.1 ++ fragment, pp.2, query, []⟩

/-- `urlparse`. -/
def urlparse (env : Env) (urlstring : Str) (base : Option Str := none) (e : Encoding := .utf8)
    (allowFragments : Bool := true) : Except Err ParseResult :=
  match (parseUrl env.quiet urlstring (match base with | none => .none | some b => .str b) e).res with
  | .ok u => .ok (u.toParseResult allowFragments)
  | .error err => .error err

end Urlstd
