/-
Specifications for `URLSearchParams`: decoded names, UTF-16 order, escapes, and the lists that the
public operations can produce.
-/
import Verif.Spec.History

namespace Urlstd.Spec

/-- A name or value after percent-decoding: UTF-8 decode of the percent-decoding of its UTF-8 encoding. -/
def decoded (s : Str) : Str := utf8Decode (percentDecode (utf8 s))

/-- No "%" with two hexadecimal digits after it. -/
def NoEscape (s : Str) : Prop := ∀ pre a b post, s = pre ++ c!"%" :: a :: b :: post → ¬ (isHex a ∧ isHex b)

/-- The UTF-16 code units of a scalar value (RFC 2781). -/
def utf16CP (c : Nat) : List Nat :=
  if c < 0x10000 then [c] else [0xD800 + (c - 0x10000) / 2 ^ 10, 0xDC00 + (c - 0x10000) % 2 ^ 10]

/-- The UTF-16 code units of a string. -/
def utf16 (s : Str) : List Nat := s.flatMap utf16CP

/-- Lexicographic order of code unit sequences. -/
inductive UnitsLE : List Nat → List Nat → Prop
  | nil (b) : UnitsLE [] b
  | lt {a b as bs} : a < b → UnitsLE (a :: as) (b :: bs)
  | eq {a as bs} : UnitsLE as bs → UnitsLE (a :: as) (a :: bs)

/-- the strings of an argument are Python strings -/
def _root_.Urlstd.ParamVal.IsStr (v : ParamVal) : Prop := Spec.IsStr v.toStr

/-- The lists that a `URLSearchParams` object can hold: after a constructor, after being attached to
a record, and after any number of operations on it. -/
inductive ParamsReached : Params → Prop
  | empty : ParamsReached []
  | ofPairs {init : List (ParamVal × ParamVal)} (h : ∀ p ∈ init, p.1.IsStr ∧ p.2.IsStr) : ParamsReached (spOfPairs init)
  | ofDict {init : List (ParamVal × ParamVal)} (h : ∀ p ∈ init, p.1.IsStr ∧ p.2.IsStr) : ParamsReached (spOfDict init)
  | ofStr {s : Str} (h : Spec.IsStr s) : ParamsReached (spOfStr s)
  | ofParams {l : Params} (h : ParamsReached l) : ParamsReached (spOfSp l)
  | ofUrl {env : Env} {o : URLObj} (h : Reached env o) : ParamsReached o.params
  | attach {q : Option Str} (h : ∀ s, q = some s → Spec.IsStr s) : ParamsReached (spOfQuery q)
  | append {l : Params} (n : Str) (v : ParamVal) : ParamsReached l → ParamsReached (spAppend l n v)
  | delete {l : Params} (n : Str) (v : Option ParamVal) : ParamsReached l → ParamsReached (spDelete l n v)
  | set {l : Params} (n : Str) (v : ParamVal) : ParamsReached l → ParamsReached (spSet l n v)
  | sort {l : Params} : ParamsReached l → ParamsReached (spSort l)

end Urlstd.Spec
