/-
Specifications for `ValidityState` and the validators.
-/
import Verif.Validator
import Verif.Spec.History

namespace Urlstd

namespace Spec

/-- the three ways to tell the number of errors agree -/
structure Consistent (v : ValidityState) : Prop where
  valid : v.valid = true ↔ v.validationErrors = 0
  types : v.errorTypes.length = v.validationErrors
  texts : v.descriptions = v.validationErrors

end Spec

/-- What a program can do with a `ValidityState` object: reset it, add another one to it, pass it to a
function that only records in it, or pass it to a function that resets it first. -/
inductive VOp where
  | reset
  | iadd (other : ValidityState)
  | addTo (other : ValidityState)                         -- `v = other + v`
  | parseUrl (s : Str) (base : BaseArg) (e : Encoding)
  | hostParse (host : Str) (isNotSpecial : Bool)
  | ipv4Parse (address : Str)
  | ipv6Parse (address : Str)
  | domainToAscii (domain : Str) (beStrict : Bool)
  | domainToUnicode (domain : Str) (beStrict : Bool)
  | canParse (s : Str) (base : UrlBase)
  | urlIsValid (s : Str) (base : BaseArg) (e : Encoding)
  | isValidUrlScheme (value : Str)
  | hostIsValid (host : Str)
  | isValidDomain (domain : Str)
  | isValidIPv4Address (address : Str)
  | isValidIPv6Address (address : Str)
  | isValidOpaqueHost (host : Str)

/-- the calls of `prepend` in a log, made on an existing object -/
def ValidityState.record (v : ValidityState) (log : Log) : ValidityState := log.foldr (fun e v => v.prepend e) v

/-- the exception, if any -/
def Except.err {α : Type} : Except Err α → Option Err
  | .ok _ => none
  | .error e => some e

/-- The exception an operation raises and the state of the object after it. -/
def VOp.apply (env : Env) (v : ValidityState) : VOp → Option Err × ValidityState
  | .reset => (none, {})
  | .iadd w => (none, v.iadd w)
  | .addTo w => (none, w.add v)
  | .parseUrl s base e =>
    let r := Urlstd.parseUrl env.recording s base e
    (Except.err r.res, v.record r.log)
  | .hostParse h m =>
    let r := Urlstd.hostParse env.recording h m
    (Except.err r.res, v.record r.log)
  | .ipv4Parse s =>
    let r := Urlstd.ipv4Parse env.recording s
    (Except.err r.res, v.record r.log)
  | .ipv6Parse s =>
    let r := Urlstd.ipv6Parse env.recording s
    (Except.err r.res, v.record r.log)
  | .domainToAscii d b =>
    let r := Urlstd.domainToAscii env.recording d b
    (Except.err r.res, v.record r.log)
  | .domainToUnicode d b =>
    let r := Urlstd.domainToUnicode env.recording d b
    (Except.err r.res, v.record r.log)
  | .canParse s base =>
    let r := Urlstd.canParse env s base
    (Except.err r.res, .ofLog r.log)
  | .urlIsValid s base e => let r := Urlstd.urlIsValid env s base e; (Except.err r.res, r.validity)
  | .isValidUrlScheme s => let r := Urlstd.isValidUrlScheme env s; (Except.err r.res, r.validity)
  | .hostIsValid s => let r := Urlstd.hostIsValid env s; (Except.err r.res, r.validity)
  | .isValidDomain s => let r := Urlstd.isValidDomain env s; (Except.err r.res, r.validity)
  | .isValidIPv4Address s => let r := Urlstd.isValidIPv4Address env s; (Except.err r.res, r.validity)
  | .isValidIPv6Address s => let r := Urlstd.isValidIPv6Address env s; (Except.err r.res, r.validity)
  | .isValidOpaqueHost s => let r := Urlstd.isValidOpaqueHost env s; (Except.err r.res, r.validity)

/-- the operation raises the bare ValueError of CPython's limit on the digits of a number -/
def VOp.RaisesValueError (env : Env) (op : VOp) : Prop := (op.apply env {}).1 = some .valueError

/-- the other state in an addition -/
def VOp.added : VOp → Option ValidityState
  | .iadd w | .addTo w => some w
  | _ => none

/-- The states of a `ValidityState` object while a program uses it, as long as none of its calls ends in that
ValueError. -/
inductive Held (env : Env) : ValidityState → Prop
  | new : Held env {}
  | op {v : ValidityState} {op : VOp} (hv : Held env v) (ha : ∀ w, op.added = some w → Held env w)
      (hn : ¬ op.RaisesValueError env) : Held env (op.apply env v).2

/-- a base URL for the validators: absent, a string, a record from the parser (called with or without
`validity`), or the record of a `URL` object -/
def ValidBase (env : Env) : BaseArg → Prop
  | .none => True
  | .str b => Spec.IsStr b
  | .record b => Parsed env.quiet b ∨ Parsed env.recording b ∨ ∃ o, Reached env o ∧ o.url = b

end Urlstd
