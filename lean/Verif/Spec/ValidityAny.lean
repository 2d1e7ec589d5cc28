/-
The states of a validity object under every history, the calls that end in ValueError included.
-/
import Verif.Spec.Validity

namespace Urlstd

/-- the operations that begin with `reset()` -/
def VOp.Resets : VOp → Prop
  | .reset | .canParse .. | .urlIsValid .. | .isValidUrlScheme _ | .hostIsValid _ | .isValidDomain _
  | .isValidIPv4Address _ | .isValidIPv6Address _ | .isValidOpaqueHost _ => True
  | _ => False

/-- 1 for an operation that raises the bare ValueError, 0 for the others -/
def VOp.failures (env : Env) (op : VOp) : Nat := if (op.apply env {}).1 = some .valueError then 1 else 0

/-- `Used env v n`: `v` is the state of a `ValidityState` object after some history, and `n` of the calls that
recorded in it since it was last reset, or in the objects added to it, ended in the bare ValueError. -/
inductive Used (env : Env) : ValidityState → Nat → Prop
  | new : Used env {} 0
  | reset {v : ValidityState} {n : Nat} {op : VOp} (hv : Used env v n) (hr : op.Resets) :
      Used env (op.apply env v).2 (op.failures env)
  | record {v : ValidityState} {n : Nat} {op : VOp} (hv : Used env v n) (hr : ¬ op.Resets) (ha : op.added = none) :
      Used env (op.apply env v).2 (n + op.failures env)
  | iadd {v w : ValidityState} {n m : Nat} (hv : Used env v n) (hw : Used env w m) :
      Used env ((VOp.iadd w).apply env v).2 (n + m)
  | addTo {v w : ValidityState} {n m : Nat} (hv : Used env v n) (hw : Used env w m) :
      Used env ((VOp.addTo w).apply env v).2 (n + m)

namespace Spec

/-- What holds of every state: it is valid when no error type is listed, there is a description for every counted
error, and beside the counted errors at most `n` error types are listed. -/
structure Bounded (v : ValidityState) (n : Nat) : Prop where
  valid : v.valid = true ↔ v.errorTypes = []
  texts : v.descriptions = v.validationErrors
  lower : v.validationErrors ≤ v.errorTypes.length
  upper : v.errorTypes.length ≤ v.validationErrors + n

end Spec
end Urlstd
