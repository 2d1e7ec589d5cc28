/-
Reading Python literals: strings, decimal integers, `None`, lists and tuples, written from the lexical analysis chapter of the
Python reference. Every reader returns the value and the rest of the text. The readers for the representations of the classes
ask for the text of a call with keyword arguments.
-/
import Verif.Record

namespace Urlstd.Spec.Literal

def hexValue (c : Nat) : Option Nat :=
  if 48 ≤ c ∧ c ≤ 57 then some (c - 48)
  else if 97 ≤ c ∧ c ≤ 102 then some (c - 87)
  else if 65 ≤ c ∧ c ≤ 70 then some (c - 55)
  else none

/-- exactly `w` hexadecimal digits; `n` is the value of those before -/
def hexDigits : (w : Nat) → (n : Nat) → Str → Option (Nat × Str)
  | 0, n, s => some (n, s)
  | _ + 1, _, [] => none
  | w + 1, n, c :: s =>
    match hexValue c with
    | some d => hexDigits w (16 * n + d) s
    | none => none

/-- what follows a backslash: a quotation mark, a backslash, t, n, r, and x, u, U with 2, 4, 8 digits -/
def escape : Str → Option (Nat × Str)
  | [] => none
  | c :: s =>
    if c = c!"'" ∨ c = c!"\"" ∨ c = c!"\\" then some (c, s)
    else if c = c!"t" then some (9, s)
    else if c = c!"n" then some (10, s)
    else if c = c!"r" then some (13, s)
    else if c = c!"x" then hexDigits 2 0 s
    else if c = c!"u" then hexDigits 4 0 s
    else if c = c!"U" then hexDigits 8 0 s
    else none

/-- the characters up to the quotation mark `q`; a literal ends on its line. `n` bounds their number. -/
def strBody (q : Nat) : (n : Nat) → Str → Option (Str × Str)
  | 0, _ => none
  | _ + 1, [] => none
  | n + 1, c :: s =>
    if c = q then some ([], s)
    else if c = 10 then none
    else
      match (if c = c!"\\" then escape s else some (c, s)) with
      | none => none
      | some (v, s) =>
        match strBody q n s with
        | none => none
        | some (vs, t) => some (v :: vs, t)

/-- a string literal -/
def str : Str → Option (Str × Str)
  | [] => none
  | q :: s => if q = c!"'" ∨ q = c!"\"" then strBody q s.length s else none

/-- a decimal integer literal -/
def int (s : Str) : Option (Nat × Str) :=
  let ds := s.takeWhile fun c => decide (48 ≤ c) && decide (c ≤ 57)
  if ds = [] then none else some (ds.foldl (fun n c => 10 * n + (c - 48)) 0, s.drop ds.length)

/-- the text `t` -/
def text (t : Str) (s : Str) : Option Str := if t.isPrefixOf s then some (s.drop t.length) else none

/-- `None`, or what `p` reads -/
def option {α : Type} (p : Str → Option (α × Str)) (s : Str) : Option (Option α × Str) :=
  match text u!"None" s with
  | some s => some (none, s)
  | none => (p s).map fun (x, s) => (some x, s)

/-- the elements behind the first one, up to the bracket `close`. `n` bounds their number. -/
def more {α : Type} (p : Str → Option (α × Str)) (close : Nat) : (n : Nat) → Str → Option (List α × Str)
  | 0, _ => none
  | n + 1, s =>
    match text [close] s with
    | some s => some ([], s)
    | none => do
      let s ← text u!", " s
      let (x, s) ← p s
      let (xs, s) ← more p close n s
      some (x :: xs, s)

/-- a list `[x, y, z]` -/
def list {α : Type} (p : Str → Option (α × Str)) (s : Str) : Option (List α × Str) := do
  let s ← text u!"[" s
  match text u!"]" s with
  | some s => some ([], s)
  | none => do
    let (x, s) ← p s
    let (xs, s) ← more p c!"]" s.length s
    some (x :: xs, s)

/-- a tuple `(x, y, z)` with two or more elements -/
def tuple {α : Type} (p : Str → Option (α × Str)) (s : Str) : Option (List α × Str) := do
  let s ← text u!"(" s
  let (x, s) ← p s
  let (xs, s) ← more p c!")" s.length s
  if xs = [] then none else some (x :: xs, s)

/-- a pair `(x, y)` of strings -/
def pair (s : Str) : Option ((Str × Str) × Str) := do
  let s ← text u!"(" s
  let (x, s) ← str s
  let s ← text u!", " s
  let (y, s) ← str s
  let s ← text u!")" s
  some ((x, y), s)

/-- a host: a string, an integer, or a tuple of integers -/
def host (s : Str) : Option (Host × Str) :=
  match str s, int s, tuple int s with
  | some (x, s), _, _ => some (.str x, s)
  | none, some (n, s), _ => some (.ipv4 n, s)
  | none, none, some (a, s) => some (.ipv6 a, s)
  | none, none, none => none

/-- a path: a string, or a list of strings -/
def path (s : Str) : Option (Path × Str) :=
  match str s, list str s with
  | some (x, s), _ => some (.opaque x, s)
  | none, some (l, s) => some (.list l, s)
  | none, none => none

/-- `URLRecord(scheme=..., username=..., ...)` -/
def record (s : Str) : Option Rec := do
  let s ← text u!"URLRecord(scheme=" s
  let (scheme, s) ← str s
  let s ← text u!", username=" s
  let (username, s) ← str s
  let s ← text u!", password=" s
  let (password, s) ← str s
  let s ← text u!", host=" s
  let (host, s) ← option host s
  let s ← text u!", port=" s
  let (port, s) ← option int s
  let s ← text u!", path=" s
  let (path, s) ← path s
  let s ← text u!", query=" s
  let (query, s) ← option str s
  let s ← text u!", fragment=" s
  let (fragment, s) ← option str s
  if s = u!")" then some { scheme, username, password, host, port, path, query, fragment } else none

/-- `URLSearchParams([(..., ...), ...])` -/
def params (s : Str) : Option (List (Str × Str)) := do
  let s ← text u!"URLSearchParams(" s
  let (l, s) ← list pair s
  if s = u!")" then some l else none

/-- the arguments `name='...'`, separated by ", " -/
def keywords : List Str → Str → Option (List Str × Str)
  | [], s => some ([], s)
  | [name], s => do
    let s ← text (name ++ u!"=") s
    let (x, s) ← str s
    some ([x], s)
  | name :: names, s => do
    let s ← text (name ++ u!"=") s
    let (x, s) ← str s
    let s ← text u!", " s
    let (xs, s) ← keywords names s
    some (x :: xs, s)

/-- `<URL(href=..., origin=..., ...)>` -/
def url (s : Str) : Option (List Str) := do
  let s ← text u!"<URL(" s
  let (xs, s) ← keywords [u!"href", u!"origin", u!"protocol", u!"username", u!"password", u!"host", u!"hostname", u!"port",
    u!"pathname", u!"search", u!"hash"] s
  if s = u!")>" then some xs else none

end Urlstd.Spec.Literal
