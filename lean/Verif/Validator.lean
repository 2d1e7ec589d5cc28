/-
`ValidityState`, `HostValidator`, `URLValidator` (parse.py:709-955, 2866-3057).
-/
import Verif.Url

namespace Urlstd

/-- `ValidityState` (parse.py:2978-3057); `descriptions` is represented by its length. -/
structure ValidityState where
  valid : Bool := true
  errorTypes : List VErr := []
  descriptions : Nat := 0
  validationErrors : Nat := 0
  deriving DecidableEq, Repr

/-- `ValidityState.prepend` (parse.py:3043-3051). -/
def ValidityState.prepend (v : ValidityState) : LogEv → ValidityState
  | .ev t => ⟨false, t :: v.errorTypes, v.descriptions + 1, v.validationErrors + 1⟩
  | .broken t => ⟨false, t :: v.errorTypes, v.descriptions, v.validationErrors⟩

/-- the state after `reset()` (parse.py:3053-3057) and the given calls of `prepend`. -/
def ValidityState.ofLog (log : Log) : ValidityState :=
  log.foldr (fun e v => v.prepend e) {}

/-- `ValidityState.__iadd__` (parse.py:3033-3041). -/
def ValidityState.iadd (a b : ValidityState) : ValidityState :=
  ⟨a.valid && b.valid, a.errorTypes ++ b.errorTypes, a.descriptions + b.descriptions,
    a.validationErrors + b.validationErrors⟩

/-- `ValidityState.__add__` (parse.py:3021-3031). -/
def ValidityState.add (a b : ValidityState) : ValidityState :=
  ⟨a.valid && b.valid, a.errorTypes ++ b.errorTypes, a.descriptions + b.descriptions,
    a.validationErrors + b.validationErrors⟩

/-- Result of a validator: its verdict or exception, and the final `validity` object. -/
structure Verdict where
  res : Except Err Bool
  validity : ValidityState

/-- `HostValidator.is_valid_domain` (parse.py:777-802). -/
def isValidDomain (env : Env) (domain : Str) : Verdict :=
  let env := env.recording
  let a := domainToAscii env domain true
  match a.res with
  | .error e => ⟨if e.isURLParseError then .ok false else .error e, .ofLog a.log⟩
  | .ok _ =>
    let b := domainToUnicode env domain true
    let v := ValidityState.ofLog (b.log ++ a.log)
    match b.res with
    | .error e => ⟨if e.isURLParseError then .ok false else .error e, v⟩
    | .ok _ => ⟨.ok (v.validationErrors == 0), v⟩

/-- the loop of `is_valid_ipv4_address` over the parts (parse.py:845-876); `none` = valid. -/
def validIPv4Parts (env : Env) : List Str → Option VErr
  | [] => none
  | part :: parts =>
    let result := parseIPv4Number env part
    if result.1 < 0 then some .ipv4NonNumericPart
    else if result.2 then some .ipv4NonDecimalPart
    -- `int(part)`: a decimal part, so this is `result[0]` again
    else if !(decide (0 ≤ result.1) && decide (result.1 ≤ 255)) then some .ipv4OutOfRangePart
    else validIPv4Parts env parts

/-- `HostValidator.is_valid_ipv4_address` (parse.py:804-876). -/
def isValidIPv4Address (env : Env) (address : Str) : Verdict :=
  let bad (t : VErr) : Verdict := ⟨.ok false, .ofLog [.ev t]⟩
  let parts := splitOn c!"." address
  if (parts.getLastD []).isEmpty then bad .ipv4EmptyPart
  else if parts.length > 4 then bad .ipv4TooManyParts
  else if parts.length < 4 then bad .undefined
  else
    match validIPv4Parts env parts with
    | some t => bad t
    | none => ⟨.ok true, {}⟩

/-- `HostValidator.is_valid_ipv6_address` (parse.py:878-902). -/
def isValidIPv6Address (env : Env) (address : Str) : Verdict :=
  let r := ipv6Parse env.recording address
  let v := ValidityState.ofLog r.log
  match r.res with
  | .ok _ => ⟨.ok (v.validationErrors == 0), v⟩
  | .error .ipv6Parse => ⟨.ok false, v⟩
  | .error e => ⟨.error e, v⟩

/-- `s.startswith("[") and s.endswith("]")` and then `s[1:-1]` -/
def bracketed (s : Str) : Option Str :=
  match s with
  | 91 :: t => if s.getLastD 0 = c!"]" then some t.dropLast else none
  | _ => none

/-- `HostValidator.is_valid` (parse.py:746-775). -/
def hostIsValid (env : Env) (host : Str) : Verdict :=
  match bracketed host with
  | some a => isValidIPv6Address env a
  | none =>
    if isEndsInANumber env host then isValidIPv4Address env host else isValidDomain env host

/-- `HostValidator.is_valid_opaque_host` (parse.py:904-955). -/
def isValidOpaqueHost (env : Env) (host : Str) : Verdict :=
  if host.isEmpty then ⟨.ok false, .ofLog [.ev .undefined]⟩
  else
    match bracketed host with
    | some a => isValidIPv6Address env a
    | none =>
      match urlUnitsError isForbiddenHost host with
      | none => ⟨.ok true, {}⟩
      | some [c] =>
        if isForbiddenHost c then ⟨.ok false, .ofLog [.ev .hostInvalidCodePoint]⟩
        else ⟨.ok false, .ofLog [.ev .invalidURLUnit]⟩
      | some _ => ⟨.ok false, .ofLog [.ev .invalidURLUnit]⟩

/-- `URLValidator.is_valid_url_scheme` (parse.py:2941-2975). -/
def isValidUrlScheme (env : Env) (value : Str) : Verdict :=
  let scheme := pyLower env value
  if !scheme.isEmpty && env.registered.contains scheme then ⟨.ok true, {}⟩
  else ⟨.ok false, .ofLog [.ev .undefined]⟩

/-- `URLValidator.is_valid` (parse.py:2898-2939). -/
def urlIsValid (env : Env) (urlstring : Str) (base : BaseArg := .none) (e : Encoding := .utf8) :
    Verdict :=
  let r := parseUrl env.recording urlstring base e
  let old := ValidityState.ofLog r.log
  match r.res with
  | .error err => ⟨if err.isURLParseError then .ok false else .error err, old⟩
  | .ok url =>
    let v := (isValidUrlScheme env url.scheme).validity.iadd old
    ⟨.ok (v.validationErrors == 0), v⟩

end Urlstd
