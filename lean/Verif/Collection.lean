/-
`URLSearchParams` as a collection, and its constructor on a sequence (parse.py:1951-1963, 1985-2071, 2165-2174, 2246-2252,
2314-2320). For slices `params[i:j]` and iterators see `Verif/Iter.lean`.
-/
import Verif.Url

namespace Urlstd

/-- `URLSearchParams(sequence)` (parse.py:1951-1963): the elements are sequences of any length; a string of two characters
is one too. -/
def spOfSeq (init : List (List ParamVal)) : Except Err Params :=
  if init.any (fun x => x.length != 2) then .error .valueError
  else .ok (spOfPairs (init.map fun x => (x.getD 0 (.str []), x.getD 1 (.str []))))

/-- `list[key]` for an integer: CPython adds the length to a negative index once (listobject.c, `list_subscript`). -/
def pyIndex {α : Type} (l : List α) (key : Int) : Except Err α :=
  let i := if key < 0 then key + l.length else key
  if i < 0 then .error .indexError
  else
    match l[i.toNat]? with
    | some x => .ok x
    | none => .error .indexError

/-- `params[key]` for an integer (parse.py:2036-2048). -/
def spIndex (l : Params) (key : Int) : Except Err (Str × Str) := pyIndex l key

/-- `len(params)` (parse.py:2061-2067). -/
def spLen (l : Params) : Nat := l.length

/-- `list(params)`, `list(params.entries())` (parse.py:2050-2059, 2165-2174). -/
def spIter (l : Params) : List (Str × Str) := l

/-- `list(params.keys())` (parse.py:2246-2252). -/
def spKeys (l : Params) : List Str := l.map fun nv => nv.1

/-- `list(params.values())` (parse.py:2314-2320). -/
def spValues (l : Params) : List Str := l.map fun nv => nv.2

/-- `params == other` for another `URLSearchParams` (parse.py:2023-2034). -/
def spEq (l l' : Params) : Bool := l == l'

/-- `params + other` for a string (parse.py:1985-2000). -/
def spAddStr (l : Params) (other : Str) : Str := spToStr l ++ other

end Urlstd
