/-
Iterators over `URLSearchParams`, and slices (parse.py:2036-2059, 2165-2174, 2246-2252, 2314-2320).

`iter(list)` of CPython (listobject.c, `listiter_next`) keeps a reference to the list object and an index. `self._list` is
mutated in place by `append`, `delete`, `set` and `sort`, and replaced by a new list object in `attach` (parse.py:2130), which
the setters `href` and `search` of `URL` call. `keys` and `values` iterate over a new list. So list objects have an identity
here, unlike in `Verif/Url.lean`.
-/
import Verif.Collection

namespace Urlstd

/-- an iterator of `URLSearchParams` -/
inductive ParamsIter where
  /-- `iter(self._list)` (parse.py:2050-2059, 2165-2174): list object, index -/
  | pairs (list index : Nat)
  /-- `iter([…])` (parse.py:2246-2252, 2314-2320): items, index -/
  | strs (list : List Str) (index : Nat)
  /-- after StopIteration (CPython drops the reference to the list) -/
  | exhausted
  deriving DecidableEq, Repr

/-- what an iterator yields -/
inductive IterItem where
  | pair (nv : Str × Str)
  | str (s : Str)
  deriving DecidableEq, Repr

/-- a `URL`, its `search_params`, and iterators: `heap` has the list objects that were `search_params._list`, `cur` is the one
that is now -/
structure IterState where
  url : Rec
  heap : List Params
  cur : Nat
  iters : List ParamsIter
  deriving DecidableEq, Repr

/-- the current parameters -/
def IterState.params (s : IterState) : Params := s.heap.getD s.cur []

/-- the `URL` as a value -/
def IterState.obj (s : IterState) : URLObj := ⟨s.url, s.params⟩

/-- a `URL` without iterators -/
def IterState.ofObj (o : URLObj) : IterState := ⟨o.url, [o.params], 0, []⟩

/-- the setters that call `attach` (parse.py:2600-2602, 2772-2784), unless they raise before -/
def reattaches (env : Env) (o : URLObj) (op : Op) : Bool :=
  match op with
  | .href _ | .search _ =>
    match (applyOp env o op).1 with
    | .ok _ => true
    | .error _ => false
  | _ => false

/-- `next(it)` (listobject.c, `listiter_next`): the item, or `none` for StopIteration -/
def ParamsIter.next (heap : List Params) : ParamsIter → Option IterItem × ParamsIter
  | .pairs k i =>
    match (heap.getD k [])[i]? with
    | some nv => (some (.pair nv), .pairs k (i + 1))
    | none => (none, .exhausted)
  | .strs l i =>
    match l[i]? with
    | some s => (some (.str s), .strs l (i + 1))
    | none => (none, .exhausted)
  | .exhausted => (none, .exhausted)

/-- statements of a program that uses the `URL` and iterators; iterators are numbered in the order of their creation -/
inductive IterCmd where
  | op (p : Op)
  | entries | keys | values
  | next (i : Nat)
  deriving DecidableEq, Repr

/-- the result of a statement: an exception, what `next` yields (`none`: StopIteration), or nothing -/
inductive IterOut where
  | nothing
  | raised (e : Err)
  | yielded (x : Option IterItem)
  deriving DecidableEq, Repr

/-- perform one statement -/
def IterState.step (env : Env) (s : IterState) : IterCmd → IterOut × IterState
  | .op p =>
    let r := applyOp env s.obj p
    let out := match r.1 with | .ok _ => IterOut.nothing | .error e => .raised e
    if reattaches env s.obj p then
      (out, { s with url := r.2.url, heap := s.heap ++ [r.2.params], cur := s.heap.length })
    else (out, { s with url := r.2.url, heap := s.heap.set s.cur r.2.params })
  | .entries => (.nothing, { s with iters := s.iters ++ [.pairs s.cur 0] })
  | .keys => (.nothing, { s with iters := s.iters ++ [.strs (spKeys s.params) 0] })
  | .values => (.nothing, { s with iters := s.iters ++ [.strs (spValues s.params) 0] })
  | .next i =>
    match s.iters[i]? with
    | none => (.nothing, s)
    | some it =>
      let r := it.next s.heap
      (.yielded r.1, { s with iters := s.iters.set i r.2 })

/-- perform statements in order -/
def IterState.run (env : Env) : IterState → List IterCmd → List IterOut × IterState
  | s, [] => ([], s)
  | s, c :: cs =>
    let r := s.step env c
    let r' := IterState.run env r.2 cs
    (r.1 :: r'.1, r'.2)

/-! ### Slices -/

/-- a bound of a slice (sliceobject.c, `PySlice_AdjustIndices`): negative values count from the end, and the result is
clipped; `lo` and `hi` are the limits -/
def sliceBound (len lo hi x : Int) : Int :=
  let x := if x < 0 then x + len else x
  if x < lo then lo else if x > hi then hi else x

/-- the items at `i`, `i + step`, … (listobject.c, `list_subscript`) -/
def sliceItems {α : Type} (l : List α) (step : Int) : Nat → Int → List α
  | 0, _ => []
  | n + 1, i =>
    match l[i.toNat]? with
    | some x => x :: sliceItems l step n (i + step)
    | none => []

/-- `list[start:stop:step]` (sliceobject.c and listobject.c): defaults and clipping depend on the sign of `step`; a step of 0
is a ValueError -/
def pySlice {α : Type} (l : List α) (start stop : Option Int) (step : Option Int) : Except Err (List α) :=
  let k := step.getD 1
  let len : Int := l.length
  if k = 0 then .error .valueError
  else if 0 < k then
    let a := (start.map (sliceBound len 0 len)).getD 0
    let b := (stop.map (sliceBound len 0 len)).getD len
    .ok (if a < b then sliceItems l k ((b - a - 1) / k + 1).toNat a else [])
  else
    let a := (start.map (sliceBound len (-1) (len - 1))).getD (len - 1)
    let b := (stop.map (sliceBound len (-1) (len - 1))).getD (-1)
    .ok (if b < a then sliceItems l k ((a - b - 1) / (-k) + 1).toNat a else [])

/-- `params[start:stop:step]` (parse.py:2036-2048). -/
def spSlice (l : Params) (start stop step : Option Int) : Except Err (List (Str × Str)) := pySlice l start stop step

example : pySlice [0, 1, 2, 3, 4] (some 1) (some (-1)) none = .ok [1, 2, 3] := by rfl
example : pySlice [0, 1, 2, 3, 4] none none (some (-1)) = .ok [4, 3, 2, 1, 0] := by rfl
example : pySlice [0, 1, 2, 3, 4] (some (-2)) (some (-9)) (some (-2)) = .ok [3, 1] := by rfl
example : pySlice [0, 1, 2, 3, 4] none none (some 2) = .ok [0, 2, 4] := by rfl

end Urlstd
