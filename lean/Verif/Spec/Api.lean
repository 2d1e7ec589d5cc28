/-
The setters of the URL class and the methods of URLSearchParams that modify its list, written from the URL Standard's
text (July 2023). https://url.spec.whatwg.org/#url-class, https://url.spec.whatwg.org/#interface-urlsearchparams

`URLObj` is used as data: a URL and the list of its query object; `Op` names the operation and its arguments.
-/
import Verif.Spec.HostParser
import Verif.Spec.Params

namespace Urlstd.Spec

/-- https://url.spec.whatwg.org/#cannot-have-a-username-password-port -/
def cannotHaveUPP (u : Rec) : Bool := u.host == none || u.host == some (.str []) || u.scheme == u!"file"

/-- https://url.spec.whatwg.org/#potentially-strip-trailing-spaces-from-an-opaque-path -/
def stripOpaque (u : Rec) : Rec :=
  match u.path with
  | .list _ => u
  | .opaque p =>
    if u.fragment ≠ none ∨ u.query ≠ none then u
    else { u with path := .opaque (p.reverse.dropWhile (· == 0x20)).reverse }

/-- remove one leading code point `c`, if there is one -/
def removeLeading (c : Nat) : Str → Str
  | [] => []
  | x :: xs => if x = c then xs else x :: xs

/-- UTF-8 percent-encode a string using the userinfo percent-encode set -/
def encodeUserinfo (s : Str) : Str := s.flatMap (encodeCP userinfoSet)

/-- the record after a run of the basic URL parser -/
def Outcome.url : Outcome → Rec
  | .failure u => u
  | .ok u => u

/-- the basic URL parser returned failure -/
def Outcome.failed : Outcome → Bool
  | .failure _ => true
  | .ok _ => false

/-- the list of the query object of a URL -/
def queryList : Option Str → Params
  | none => []
  | some q => urlencodedParse (utf8 q)

/-- https://url.spec.whatwg.org/#concept-urlsearchparams-update -/
def updateQuery (l : Params) (u : Rec) : Rec :=
  let q := urlencodedSerialize urlencodedKeep l
  if q = [] then stripOpaque { u with query := none } else { u with query := some q }

/-- https://url.spec.whatwg.org/#dom-urlsearchparams-set -/
def setPair (n v : Str) : Params → Params
  | [] => [(n, v)]
  | p :: ps => if p.1 = n then (n, v) :: ps.filter (fun q => q.1 ≠ n) else p :: setPair n v ps

/-- `l'` is `l` sorted by the code units of the names, equal names in their order -/
def SortedFrom (l l' : Params) : Prop :=
  (l'.Pairwise fun x y => UnitsLE (utf16 x.1) (utf16 y.1)) ∧
    ∀ k, l'.filter (fun p => utf16 p.1 == k) = l.filter (fun p => utf16 p.1 == k)

/-- The basic URL parser is run on `input` with `u` as url and a state override; `failed` tells whether it returned
failure, `o'` has the record it leaves. -/
def Runs (hp : Str → Bool → Option Host) (o : URLObj) (input : Str) (u : Rec) (st : State) (failed : Bool) (o' : URLObj) : Prop :=
  ∃ r, Modifies hp input u st r ∧ failed = r.failed ∧ o' = { o with url := r.url }

/-- nothing is done -/
def Ignored (o : URLObj) (failed : Bool) (o' : URLObj) : Prop := failed = false ∧ o' = o

/-- the list of the query object becomes `l`, and the URL is updated -/
def Lists (o : URLObj) (l : Params) (failed : Bool) (o' : URLObj) : Prop :=
  failed = false ∧ o' = ⟨updateQuery l o.url, l⟩

/-- What an operation makes of a URL object, by the standard. `failed` tells whether the basic URL parser returned
failure; the `href` setter then throws a TypeError, the other setters ignore it. -/
def Performs (hp : Str → Bool → Option Host) (o : URLObj) (op : Op) (failed : Bool) (o' : URLObj) : Prop :=
  match op with
  | .href v => ∃ r, Parses hp v none .utf8 r ∧
      failed = r.failed ∧ o' = match r with | .failure _ => o | .ok u => ⟨u, queryList u.query⟩
  | .protocol v => Runs hp o (v ++ u!":") o.url .schemeStart failed o'
  | .username v =>
    if cannotHaveUPP o.url then Ignored o failed o'
    else failed = false ∧ o' = { o with url := { o.url with username := encodeUserinfo v } }
  | .password v =>
    if cannotHaveUPP o.url then Ignored o failed o'
    else failed = false ∧ o' = { o with url := { o.url with password := encodeUserinfo v } }
  | .host v => if isOpaque o.url then Ignored o failed o' else Runs hp o v o.url .host failed o'
  | .hostname v => if isOpaque o.url then Ignored o failed o' else Runs hp o v o.url .hostname failed o'
  | .port v =>
    if cannotHaveUPP o.url then Ignored o failed o'
    else if v = [] then failed = false ∧ o' = { o with url := { o.url with port := none } }
    else Runs hp o v o.url .port failed o'
  | .pathname v =>
    if isOpaque o.url then Ignored o failed o' else Runs hp o v { o.url with path := .list [] } .pathStart failed o'
  | .search v =>
    if v = [] then failed = false ∧ o' = ⟨stripOpaque { o.url with query := none }, []⟩
    else
      Runs hp { o with params := urlencodedParse (utf8 (removeLeading c!"?" v)) } (removeLeading c!"?" v)
        { o.url with query := some [] } .query failed o'
  | .hash v =>
    if v = [] then failed = false ∧ o' = { o with url := stripOpaque { o.url with fragment := none } }
    else Runs hp o (removeLeading c!"#" v) { o.url with fragment := some [] } .fragment failed o'
  | .spAppend n v => Lists o (o.params ++ [(n, v.toStr)]) failed o'
  | .spDelete n none => Lists o (o.params.filter fun p => p.1 ≠ n) failed o'
  | .spDelete n (some v) => Lists o (o.params.filter fun p => ¬ (p.1 = n ∧ p.2 = v.toStr)) failed o'
  | .spSet n v => Lists o (setPair n v.toStr o.params) failed o'
  | .spSort => ∃ l, SortedFrom o.params l ∧ Lists o l failed o'

/-- during a run of the basic URL parser with `u` as url and a state override, the host parser is called on `t` -/
def ModifyAsks (hp : Str → Bool → Option Host) (input : Str) (u : Rec) (st : State) (t : Str) (m : Bool) : Prop :=
  Asks ⟨none, encoder .utf8, some st, hp⟩ (dropTabs input) (.start st u) t m

/-- during an operation the host parser is called on `t` (all other operations do not even start a state that calls it) -/
def OpAsks (hp : Str → Bool → Option Host) (o : URLObj) (op : Op) (t : Str) (m : Bool) : Prop :=
  match op with
  | .href v => ParseAsks hp v none .utf8 t m
  | .host v => isOpaque o.url = false ∧ ModifyAsks hp v o.url .host t m
  | .hostname v => isOpaque o.url = false ∧ ModifyAsks hp v o.url .hostname t m
  | _ => False

/-! ### Where the library agrees -/

/-- no "~" in a name or value -/
def NoTilde (l : Params) : Prop := ∀ p ∈ l, c!"~" ∉ p.1 ∧ c!"~" ∉ p.2

/-- a name or value that the library does not change by percent-decoding it -/
def PlainName (s : Str) : Prop := IsScalarStr s ∧ NoEscape s

/-- The operations for which C67 is proved. -/
def RegularOp (o : URLObj) : Op → Prop
  | .hash v | .href v | .username v | .password v | .pathname v | .port v => IsScalarStr v
  | .protocol v | .host v | .hostname v => IsScalarStr v ∧ o.url.port ≠ some 0
  | .search v => IsScalarStr v ∧ ∀ c ∈ v, ¬ TabOrNewline c
  | .spAppend n v | .spSet n v =>
    PlainName n ∧ PlainName v.toStr ∧ c!"~" ∉ n ∧ c!"~" ∉ v.toStr ∧ NoTilde o.params
  | .spDelete n none => PlainName n ∧ NoTilde o.params
  | .spDelete n (some v) => PlainName n ∧ (∃ s, v = .str s) ∧ NoTilde o.params
  | .spSort => NoTilde o.params

/-- length of the text of an operation -/
def opLength : Op → Nat
  | .hash v | .href v | .username v | .password v | .pathname v | .port v | .host v | .hostname v | .search v => v.length
  | .protocol v => v.length + 1
  | .spAppend .. | .spDelete .. | .spSet .. | .spSort => 0

end Urlstd.Spec
