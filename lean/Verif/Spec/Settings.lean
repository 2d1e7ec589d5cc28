/-
Two settings of the interpreter: the libraries are the same, but the limit for digits (`sys.set_int_max_str_digits`) and whether
validation errors are recorded may differ.
-/
import Verif.Spec.PyInt

namespace Urlstd.Spec

/-- the same IDNA library and the same Unicode database -/
structure SameLibrary (env env' : Env) : Prop where
  idna : env.nameToAscii = env'.nameToAscii
  space : env.uniSpace = env'.uniSpace
  decimal : env.uniDecimal = env'.uniDecimal

/-- numbers of `n` digits are within the limit -/
def Within (env : Env) (n : Nat) : Prop := env.maxStrDigits = 0 ∨ n ≤ env.maxStrDigits

/-- A domain that is an address for the second interpreter only: its last part is a number with more digits than the first converts. -/
def HiddenNumber (env env' : Env) (a : Str) : Prop := EndsInNumber env' a ∧ ¬ EndsInNumber env a

end Urlstd.Spec
