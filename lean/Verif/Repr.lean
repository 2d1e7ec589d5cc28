/-
`__repr__` (parse.py:1674-1687, 2069-2071, 2405-2421), and CPython's `repr` of the values that occur in them.
-/
import Verif.Url

namespace Urlstd

/-- `w` hexadecimal digits, the last ones of `n` -/
def hexFixed : (w : Nat) → (n : Nat) → Str
  | 0, _ => []
  | w + 1, n => hexFixed w (n / 16) ++ [hexDigitLower (n % 16)]

/-- The quotation mark of `repr(s)` (CPython, `unicode_repr`): "'", or '"' if the text contains "'" but not '"'. -/
def reprQuote (s : Str) : Nat := if s.contains c!"'" && !s.contains c!"\"" then c!"\"" else c!"'"

/-- A character in `repr(s)` (CPython, `unicode_repr`). `printable` is `str.isprintable` beyond ASCII. -/
def reprChar (printable : Nat → Bool) (quote c : Nat) : Str :=
  if c = quote || c = c!"\\" then [c!"\\", c]
  else if c = 9 then u!"\\t"
  else if c = 10 then u!"\\n"
  else if c = 13 then u!"\\r"
  else if c < 32 || c = 127 then u!"\\x" ++ hexFixed 2 c
  else if c < 127 then [c]
  else if printable c then [c]
  else if c ≤ 0xFF then u!"\\x" ++ hexFixed 2 c
  else if c ≤ 0xFFFF then u!"\\u" ++ hexFixed 4 c
  else u!"\\U" ++ hexFixed 8 c

/-- `repr(s)` for a string. -/
def reprStr (printable : Nat → Bool) (s : Str) : Str :=
  reprQuote s :: (s.flatMap (reprChar printable (reprQuote s)) ++ [reprQuote s])

/-- `repr(n)` for an integer; the digit limit applies. -/
def reprInt (env : Env) (n : Nat) : Except Err Str := if strTooLong env n then .error .valueError else .ok (natDec n)

/-- `repr` of the elements in order; the first exception is raised. -/
def reprInts (env : Env) : List Nat → Except Err (List Str)
  | [] => .ok []
  | n :: ns =>
    match reprInt env n with
    | .error e => .error e
    | .ok s =>
      match reprInts env ns with
      | .error e => .error e
      | .ok ss => .ok (s :: ss)

/-- `repr` of a list whose elements have these representations. -/
def reprList (items : List Str) : Str := u!"[" ++ joinWith u!", " items ++ u!"]"

/-- `repr` of a tuple whose elements have these representations. -/
def reprTuple : List Str → Str
  | [s] => u!"(" ++ s ++ u!",)"
  | items => u!"(" ++ joinWith u!", " items ++ u!")"

/-- `f"{self.host!r}"`. -/
def reprHost (env : Env) (printable : Nat → Bool) : Option Host → Except Err Str
  | none => .ok u!"None"
  | some (.str s) => .ok (reprStr printable s)
  | some (.ipv4 n) => reprInt env n
  | some (.ipv6 a) =>
    match reprInts env a with
    | .error e => .error e
    | .ok ss => .ok (reprTuple ss)

/-- `f"{self.port!r}"`. -/
def reprPort (env : Env) : Option Nat → Except Err Str
  | none => .ok u!"None"
  | some n => reprInt env n

/-- `f"{self.path!r}"`. -/
def reprPath (printable : Nat → Bool) : Path → Str
  | .opaque s => reprStr printable s
  | .list l => reprList (l.map (reprStr printable))

/-- `f"{self.query!r}"`, `f"{self.fragment!r}"`. -/
def reprOpt (printable : Nat → Bool) : Option Str → Str
  | none => u!"None"
  | some s => reprStr printable s

/-- `URLRecord.__repr__` (parse.py:1674-1687). -/
def Rec.repr (env : Env) (printable : Nat → Bool) (u : Rec) : Except Err Str :=
  match reprHost env printable u.host with
  | .error e => .error e
  | .ok host =>
    match reprPort env u.port with
    | .error e => .error e
    | .ok port =>
      .ok (u!"URLRecord(scheme=" ++ reprStr printable u.scheme ++ u!", username=" ++ reprStr printable u.username ++
        u!", password=" ++ reprStr printable u.password ++ u!", host=" ++ host ++ u!", port=" ++ port ++
        u!", path=" ++ reprPath printable u.path ++ u!", query=" ++ reprOpt printable u.query ++
        u!", fragment=" ++ reprOpt printable u.fragment ++ u!")")

/-- `URLSearchParams.__repr__` (parse.py:2069-2071). -/
def spRepr (printable : Nat → Bool) (l : Params) : Str :=
  u!"URLSearchParams(" ++ reprList (l.map fun p => reprTuple [reprStr printable p.1, reprStr printable p.2]) ++ u!")"

/-- `URL.__repr__` (parse.py:2405-2421). Reading `origin` can raise. -/
def URLObj.repr (env : Env) (printable : Nat → Bool) (o : URLObj) : Except Err Str :=
  match o.origin env with
  | .error e => .error e
  | .ok origin =>
    .ok (u!"<URL(href=" ++ reprStr printable o.href ++ u!", origin=" ++ reprStr printable origin ++
      u!", protocol=" ++ reprStr printable o.protocol ++ u!", username=" ++ reprStr printable o.username ++
      u!", password=" ++ reprStr printable o.password ++ u!", host=" ++ reprStr printable o.host ++
      u!", hostname=" ++ reprStr printable o.hostname ++ u!", port=" ++ reprStr printable o.port ++
      u!", pathname=" ++ reprStr printable o.pathname ++ u!", search=" ++ reprStr printable o.search ++
      u!", hash=" ++ reprStr printable o.hash ++ u!")>")

end Urlstd
