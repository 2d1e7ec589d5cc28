/-
Programs that use several `URL`, `URLSearchParams` and `URLRecord` objects.

`Verif/Url.lean` treats a `URL` object as a value. Here `URL`, `URLSearchParams` and `URLRecord` objects and the path
lists of records are objects with identities, so that one object can be reached in several ways: a `URL` and its
`URLSearchParams` hold the same `URLRecord`, `url.search_params` returns the same object every time, a `URL` given as base
is the object itself. Strings, numbers and tuples are immutable, so sharing them cannot be observed. The list `_list` of a
`URLSearchParams` is never held by another object (parse.py:1946, 2131: it is a new list each time), so it is kept
as a value.

Not modelled: writing to attributes from outside (`record.path.append(...)`), iterators over a list that changes.
-/
import Verif.Heap

namespace Urlstd

/-- a `URLRecord` object: its attributes except `path` (the field `path` of `attrs` is not used), and its `path` -/
structure RecObj where
  attrs : Rec
  path : PathRef

/-- a `URLSearchParams` object: `_list` and `_url` (parse.py:1946-1947) -/
structure QueryObj where
  list : Params
  url : Option Nat

/-- a `URL` object: `_url` and `_query` (parse.py:2387-2388) -/
structure UrlRef where
  url : Nat
  query : Nat

/-- All objects, and the variables of a program. The identity of an object is its position. -/
structure Store where
  lists : Heap
  recs : List RecObj
  queries : List QueryObj
  /-- the `URL` objects made by the program -/
  urls : List UrlRef
  /-- the results of `parse_url` -/
  records : List Nat
  /-- the `URLSearchParams` objects made by the program or obtained as `url.search_params` -/
  params : List Nat

def Store.empty : Store := ⟨[], [], [], [], [], []⟩

/-- the record object at an address -/
def Store.recObj (S : Store) (r : Nat) : RecObj := S.recs.getD r ⟨{}, .str []⟩

/-- what a record object stands for -/
def Store.record (S : Store) (r : Nat) : Rec := { (S.recObj r).attrs with path := S.lists.read (S.recObj r).path }

/-- the query object at an address -/
def Store.query (S : Store) (q : Nat) : QueryObj := S.queries.getD q ⟨[], none⟩

/-! ### Parsing -/

/-- `BasicURLParser.parse(s, base)`: makes a new `URLRecord` (parse.py:4171-4172). When an exception is raised nothing holds
that record. -/
def Store.parse (env : Env) (s : Str) (base : Option Nat) (S : Store) : Except Err Nat × Store :=
  let o := heapParse env.quiet s (base.map S.record) .utf8 S.lists (match base with | none => .str [] | some r => (S.recObj r).path)
  match o.res with
  | .ok _ => (.ok S.recs.length, { S with lists := o.heap, recs := S.recs ++ [⟨o.url, o.ref⟩] })
  | .error e => (.error e, { S with lists := o.heap })

/-- `base` of `parse_url`: `None`, a string, or a record object -/
inductive StoreBase where
  | none
  | str (s : Str)
  | record (r : Nat)

/-- `parse_url` (parse.py:4347-4361). -/
def Store.parseUrl (env : Env) (s : Str) (base : StoreBase) (S : Store) : Except Err Nat × Store :=
  match base with
  | .none => S.parse env s none
  | .record r => S.parse env s (some r)
  | .str b =>
    match S.parse env b none with
    | (.error e, S') => (.error e, S')
    | (.ok r, S') => S'.parse env s (some r)

/-- an assignment to attributes of a record object -/
def Store.assign (S : Store) (r : Nat) (f : RecObj → RecObj) : Store := { S with recs := S.recs.set r (f (S.recObj r)) }

/-- `BasicURLParser.parse(value, url=record, state_override=ov)` -/
def Store.override (env : Env) (value : Str) (r : Nat) (ov : PState) (S : Store) : Except Err Unit × Store :=
  let url := S.record r
  let o := heapRun env.quiet .utf8 none (some ov) (.str []) 20 ov (prepared value (some url)) url
    (S.lists, (S.recObj r).path)
  (o.res, { S with lists := o.heap, recs := S.recs.set r ⟨o.url, o.ref⟩ })

/-! ### Query objects -/

/-- `potentially_rstrip_from_opaque_path` (parse.py:271-278): a string path is replaced by a new string. -/
def RecObj.rstrip (c : RecObj) : RecObj :=
  match c.path, c.attrs.fragment, c.attrs.query with
  | .str s, none, none =>
    { c with path := .str (s.reverse.dropWhile fun x => isPySpace x || (0x1C ≤ x && x ≤ 0x1F)).reverse }
  | _, _, _ => c

/-- `URLSearchParams.attach` (parse.py:2123-2132). -/
def Store.attach (q r : Nat) (S : Store) : Store :=
  { S with queries := S.queries.set q ⟨spOfQuery (S.record r).query, some r⟩ }

/-- `URLSearchParams._update` (parse.py:2092-2101). -/
def Store.update (q : Nat) (S : Store) : Store :=
  match (S.query q).url with
  | none => S
  | some r =>
    let s := spToStr (S.query q).list
    if s.isEmpty then S.assign r fun c => RecObj.rstrip { c with attrs := { c.attrs with query := none } }
    else S.assign r fun c => { c with attrs := { c.attrs with query := some s } }

/-- the mutating methods of `URLSearchParams` -/
inductive SpOp where
  | append (n : Str) (v : ParamVal) | delete (n : Str) (v : Option ParamVal) | set (n : Str) (v : ParamVal) | sort
  deriving DecidableEq, Repr

/-- the list afterwards (parse.py:2118-2121, 2157-2163, 2272-2288, 2306-2311) -/
def SpOp.list (l : Params) : SpOp → Params
  | .append n v => spAppend l n v
  | .delete n v => spDelete l n v
  | .set n v => spSet l n v
  | .sort => spSort l

/-- a mutating method of the query object `q` -/
def Store.mutate (q : Nat) (op : SpOp) (S : Store) : Store :=
  let o := S.query q
  Store.update q { S with queries := S.queries.set q { o with list := op.list o.list } }

/-! ### `URL` objects -/

/-- The setters of `URL` on the object `x` at position `i`, and the methods of its `search_params`
(parse.py:2501-2836; cf. `setHash` and so on in `Verif/Url.lean`). -/
def Store.urlOp (env : Env) (i : Nat) (x : UrlRef) (S : Store) : Op → Except Err Unit × Store
  | .hash v =>
    if v.isEmpty then
      (.ok (), S.assign x.url fun c => RecObj.rstrip { c with attrs := { c.attrs with fragment := none } })
    else
      Store.override env (dropLead c!"#" v) x.url .fragment
        (S.assign x.url fun c => { c with attrs := { c.attrs with fragment := some [] } })
  | .host v => if (S.record x.url).hasOpaquePath then (.ok (), S) else S.override env v x.url .host
  | .hostname v => if (S.record x.url).hasOpaquePath then (.ok (), S) else S.override env v x.url .hostname
  | .href v =>
    match S.parse env v none with
    | (.error e, S') => (.error e, S')
    | (.ok r, S') => (.ok (), Store.attach x.query r { S' with urls := S'.urls.set i { x with url := r } })
  | .password v =>
    if (S.record x.url).cannotHaveUPP then (.ok (), S)
    else (.ok (), S.assign x.url fun c => { c with attrs := { c.attrs with password := utf8PercentEncode v safeUserinfo } })
  | .pathname v =>
    if (S.record x.url).hasOpaquePath then (.ok (), S)
    else
      Store.override env v x.url .pathStart
        ({ S with lists := S.lists ++ [[]] }.assign x.url fun c => { c with path := .obj S.lists.length })
  | .port v =>
    if (S.record x.url).cannotHaveUPP then (.ok (), S)
    else if v.isEmpty then (.ok (), S.assign x.url fun c => { c with attrs := { c.attrs with port := none } })
    else S.override env v x.url .port
  | .protocol v => S.override env (v ++ u!":") x.url .schemeStart
  | .search v =>
    if v.isEmpty then
      let S' := S.assign x.url fun c => RecObj.rstrip { c with attrs := { c.attrs with query := none } }
      (.ok (), S'.attach x.query x.url)
    else
      match Store.override env (dropLead c!"?" v) x.url .query
          (S.assign x.url fun c => { c with attrs := { c.attrs with query := some [] } }) with
      | (.ok _, S') => (.ok (), S'.attach x.query x.url)
      | (.error e, S') => (.error e, S')
  | .username v =>
    if (S.record x.url).cannotHaveUPP then (.ok (), S)
    else (.ok (), S.assign x.url fun c => { c with attrs := { c.attrs with username := utf8PercentEncode v safeUserinfo } })
  | .spAppend n v => (.ok (), S.mutate x.query (.append n v))
  | .spDelete n v => (.ok (), S.mutate x.query (.delete n v))
  | .spSet n v => (.ok (), S.mutate x.query (.set n v))
  | .spSort => (.ok (), S.mutate x.query .sort)

/-! ### Programs -/

/-- `base` of `URL`: `None`, a string, or the `URL` in a variable -/
inductive VarBase where
  | none
  | str (s : Str)
  | var (i : Nat)
  deriving DecidableEq, Repr

/-- the argument of `URLSearchParams`; records and query objects are given by variables -/
inductive ParamsInit where
  | none
  | str (s : Str)
  | pairs (l : List (ParamVal × ParamVal))
  | dict (l : List (ParamVal × ParamVal))
  | record (k : Nat)
  | params (j : Nat)
  deriving DecidableEq, Repr

/-- A command. A variable is given by its position; a command that makes an object assigns it to the next
variable of its kind, unless an exception is raised. -/
inductive Cmd where
  /-- `x = URL(s, base)` -/
  | url (s : Str) (base : VarBase)
  /-- a setter of the URL in variable `i`, or a method of its `search_params` -/
  | urlOp (i : Nat) (op : Op)
  /-- `p = x.search_params` -/
  | searchParams (i : Nat)
  /-- `r = parse_url(s, base)` where the base may be a record -/
  | record (s : Str) (base : VarBase)
  /-- `p = URLSearchParams(init)` -/
  | params (init : ParamsInit)
  /-- a method of the `URLSearchParams` in variable `j` -/
  | spOp (j : Nat) (op : SpOp)
  deriving DecidableEq, Repr

/-- `x = URL(s, base)` (parse.py:2383-2388). -/
def Store.newUrl (env : Env) (s : Str) (base : StoreBase) (S : Store) : Except Err Unit × Store :=
  match S.parseUrl env s base with
  | (.error e, S') => (.error e, S')
  | (.ok r, S') =>
    (.ok (), { S' with
      queries := S'.queries ++ [⟨spOfQuery (S'.record r).query, some r⟩]
      urls := S'.urls ++ [⟨r, S'.queries.length⟩] })

/-- `r = parse_url(s, base)`. -/
def Store.newRecord (env : Env) (s : Str) (base : StoreBase) (S : Store) : Except Err Unit × Store :=
  match S.parseUrl env s base with
  | (.error e, S') => (.error e, S')
  | (.ok r, S') => (.ok (), { S' with records := S'.records ++ [r] })

/-- `p = URLSearchParams(init)` for an `init` that gives the object `o`. -/
def Store.newQuery (o : QueryObj) (S : Store) : Except Err Unit × Store :=
  (.ok (), { S with queries := S.queries ++ [o], params := S.params ++ [S.queries.length] })

/-- Execute a command. A command that uses a variable that was not assigned does nothing. -/
def Store.exec (env : Env) (S : Store) : Cmd → Except Err Unit × Store
  | .url s .none => S.newUrl env s .none
  | .url s (.str b) => S.newUrl env s (.str b)
  | .url s (.var i) =>
    match S.urls[i]? with
    | some x => S.newUrl env s (.record x.url)
    | none => (.ok (), S)
  | .urlOp i op =>
    match S.urls[i]? with
    | some x => S.urlOp env i x op
    | none => (.ok (), S)
  | .searchParams i =>
    match S.urls[i]? with
    | some x => (.ok (), { S with params := S.params ++ [x.query] })
    | none => (.ok (), S)
  | .record s .none => S.newRecord env s .none
  | .record s (.str b) => S.newRecord env s (.str b)
  | .record s (.var k) =>
    match S.records[k]? with
    | some r => S.newRecord env s (.record r)
    | none => (.ok (), S)
  | .params .none => S.newQuery ⟨[], none⟩
  | .params (.str s) => S.newQuery ⟨spOfStr s, none⟩
  | .params (.pairs l) => S.newQuery ⟨spOfPairs l, none⟩
  | .params (.dict l) => S.newQuery ⟨spOfDict l, none⟩
  | .params (.record k) =>
    match S.records[k]? with
    | some r => S.newQuery ⟨spOfQuery (S.record r).query, some r⟩
    | none => (.ok (), S)
  | .params (.params j) =>
    match S.params[j]? with
    | some q => S.newQuery ⟨spOfSp (S.query q).list, none⟩
    | none => (.ok (), S)
  | .spOp j op =>
    match S.params[j]? with
    | some q => (.ok (), S.mutate q op)
    | none => (.ok (), S)

/-- a program: its commands one after another; exceptions are caught and the program goes on -/
def Store.run (env : Env) (S : Store) : List Cmd → List (Except Err Unit) × Store
  | [] => ([], S)
  | c :: cs =>
    let (r, S') := S.exec env c
    let (rs, S'') := Store.run env S' cs
    (r :: rs, S'')

/-! ### What a program can see -/

/-- the `URL` in a variable as a value -/
def Store.urlValue (S : Store) (x : UrlRef) : URLObj := ⟨S.record x.url, (S.query x.query).list⟩

end Urlstd
