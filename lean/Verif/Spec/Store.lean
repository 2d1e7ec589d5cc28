/-
Programs with several objects, on values: there are no identities, so nothing can be shared by mistake.

A `URL` is a value that contains the list of its `search_params`. A variable for a `URLSearchParams` is either "the
`search_params` of that URL variable", or a list of its own, possibly one that writes its changes to a record variable.
-/
import Verif.Store

namespace Urlstd.Spec

/-- the value of a variable for a `URLSearchParams` -/
inductive ParamsVar where
  /-- the `search_params` of URL variable `i` -/
  | ofUrl (i : Nat)
  /-- a list of its own; changes are also written to the record in variable `k`, if there is one -/
  | own (l : Params) (k : Option Nat)
  deriving DecidableEq, Repr

/-- the values of all variables -/
structure World where
  urls : List URLObj
  records : List Rec
  params : List ParamsVar
  deriving DecidableEq, Repr

def World.empty : World := ⟨[], [], []⟩

/-- the pairs of a `URLSearchParams` -/
def World.list (W : World) : ParamsVar → Params
  | .ofUrl i => match W.urls[i]? with | some o => o.params | none => []
  | .own l _ => l

/-- the operation of `Verif/Url.lean` that a method of `search_params` is -/
def opOf : SpOp → Op
  | .append n v => .spAppend n v
  | .delete n v => .spDelete n v
  | .set n v => .spSet n v
  | .sort => .spSort

def World.newUrl (env : Env) (s : Str) (base : UrlBase) (W : World) : Except Err Unit × World :=
  match URLObj.new env s base with
  | .ok o => (.ok (), { W with urls := W.urls ++ [o] })
  | .error e => (.error e, W)

def World.newRecord (env : Env) (s : Str) (base : BaseArg) (W : World) : Except Err Unit × World :=
  match (parseUrl env.quiet s base).res with
  | .ok u => (.ok (), { W with records := W.records ++ [u] })
  | .error e => (.error e, W)

def World.newParams (p : ParamsVar) (W : World) : Except Err Unit × World :=
  (.ok (), { W with params := W.params ++ [p] })

/-- An operation on a URL changes the value of that variable, and of no other variable. -/
def World.urlOp (env : Env) (i : Nat) (op : Op) (W : World) : Except Err Unit × World :=
  match W.urls[i]? with
  | some o => ((applyOp env o op).1, { W with urls := W.urls.set i (applyOp env o op).2 })
  | none => (.ok (), W)

def World.exec (env : Env) (W : World) : Cmd → Except Err Unit × World
  | .url s .none => W.newUrl env s .none
  | .url s (.str b) => W.newUrl env s (.str b)
  | .url s (.var i) =>
    match W.urls[i]? with
    | some o => W.newUrl env s (.url o)
    | none => (.ok (), W)
  | .urlOp i op => W.urlOp env i op
  | .searchParams i =>
    match W.urls[i]? with
    | some _ => W.newParams (.ofUrl i)
    | none => (.ok (), W)
  | .record s .none => W.newRecord env s .none
  | .record s (.str b) => W.newRecord env s (.str b)
  | .record s (.var k) =>
    match W.records[k]? with
    | some u => W.newRecord env s (.record u)
    | none => (.ok (), W)
  | .params .none => W.newParams (.own [] none)
  | .params (.str s) => W.newParams (.own (spOfStr s) none)
  | .params (.pairs l) => W.newParams (.own (spOfPairs l) none)
  | .params (.dict l) => W.newParams (.own (spOfDict l) none)
  | .params (.record k) =>
    match W.records[k]? with
    | some u => W.newParams (.own (spOfQuery u.query) (some k))
    | none => (.ok (), W)
  | .params (.params j) =>
    match W.params[j]? with
    | some p => W.newParams (.own (spOfSp (W.list p)) none)
    | none => (.ok (), W)
  | .spOp j op =>
    match W.params[j]? with
    | some (.ofUrl i) => W.urlOp env i (opOf op)
    | some (.own l none) => (.ok (), { W with params := W.params.set j (.own (op.list l) none) })
    | some (.own l (some k)) =>
      let l' := op.list l
      (.ok (), { W with
        params := W.params.set j (.own l' (some k))
        records := W.records.modify k (spUpdate l') })
    | none => (.ok (), W)

def World.run (env : Env) (W : World) : List Cmd → List (Except Err Unit) × World
  | [] => ([], W)
  | c :: cs =>
    let (r, W') := W.exec env c
    let (rs, W'') := World.run env W' cs
    (r :: rs, W'')

/-- The program sees the same: every variable has the same value. -/
structure SameView (S : Store) (W : World) : Prop where
  urls : S.urls.map S.urlValue = W.urls
  records : S.records.map S.record = W.records
  params : (S.params.map fun q => (S.query q).list) = W.params.map W.list

end Urlstd.Spec
