/-
How much text a program has given for a `URL` object: what property C87 measures the results by.
-/
import Verif.Spec.History

namespace Urlstd

/-- the number of characters that an operation is given -/
def Op.chars : Op → Nat
  | .hash v | .host v | .hostname v | .href v | .password v | .pathname v | .port v | .protocol v | .search v
  | .username v => v.length
  | .spAppend n v | .spSet n v => n.length + v.toStr.length
  | .spDelete n v => n.length + (v.elim 0 fun x => x.toStr.length)
  | .spSort => 0

namespace Spec

/-- The object was made with `n` characters and calls: the characters of all strings given to the constructor and to the
operations on the object, and one for each call; the same of the base, if that is an object. -/
inductive Fed (env : Env) : URLObj → Nat → Prop
  | new {s : Str} {o : URLObj} (hs : IsStr s) (h : URLObj.new env s = .ok o) : Fed env o (s.length + 1)
  | newStr {s b : Str} {o : URLObj} (hs : IsStr s) (hb : IsStr b) (h : URLObj.new env s (.str b) = .ok o) :
      Fed env o (s.length + b.length + 1)
  | newUrl {s : Str} {b o : URLObj} {n : Nat} (hs : IsStr s) (hb : Fed env b n) (h : URLObj.new env s (.url b) = .ok o) :
      Fed env o (n + s.length + 1)
  | op {o : URLObj} {op : Op} {n : Nat} (h : Fed env o n) (hop : op.IsStr) : Fed env (applyOp env o op).2 (n + op.chars + 1)

/-- the IDNA library lengthens a domain at most `C` times -/
def IdnaFactor (env : Env) (C : Nat) : Prop :=
  ∀ d out errs, IsStr d → env.nameToAscii false d = .ok out errs → out.length ≤ C * d.length

end Spec
end Urlstd
