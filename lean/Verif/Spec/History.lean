/-
Histories of a `URL` object.
-/
import Verif.Url
import Verif.Spec.Url

namespace Urlstd

/-- the strings an operation is given are Python strings -/
def Op.IsStr : Op → Prop
  | .hash v | .host v | .hostname v | .href v | .password v | .pathname v | .port v | .protocol v | .search v
  | .username v => Spec.IsStr v
  | .spAppend n v | .spSet n v => Spec.IsStr n ∧ Spec.IsStr v.toStr
  | .spDelete n v => Spec.IsStr n ∧ ∀ x, v = some x → Spec.IsStr x.toStr
  | .spSort => True

/-- A `URL` object a program can hold: the constructor returns it, for any string and any base, or an
operation leads to it from such an object; the exception an operation raises may be caught. -/
inductive Reached (env : Env) : URLObj → Prop
  | new {s : Str} {o : URLObj} (hs : Spec.IsStr s) (h : URLObj.new env s = .ok o) : Reached env o
  | newStr {s b : Str} {o : URLObj} (hs : Spec.IsStr s) (hb : Spec.IsStr b) (h : URLObj.new env s (.str b) = .ok o) :
      Reached env o
  | newUrl {s : Str} {b o : URLObj} (hs : Spec.IsStr s) (hb : Reached env b) (h : URLObj.new env s (.url b) = .ok o) :
      Reached env o
  | op {o : URLObj} {op : Op} (h : Reached env o) (hop : op.IsStr) : Reached env (applyOp env o op).2

namespace Spec

/-- The records that the setters, but never the parser, produce: the port is 0 though the host is empty
or the scheme "file", or a "file" URL has the host "localhost" or a path that starts with a drive
letter followed by "|". -/
def Deviant (u : Rec) : Prop :=
  (u.port = some 0 ∧ (u.host = some (.str []) ∨ u.scheme = u!"file")) ∨
  (u.scheme = u!"file" ∧ (u.host = some (.str u!"localhost") ∨
    ∃ c rest, ((c!"A" ≤ c ∧ c ≤ c!"Z") ∨ (c!"a" ≤ c ∧ c ≤ c!"z")) ∧ u.path = .list ([c, c!"|"] :: rest)))

/-- credentials occur with a non-empty host and a scheme other than "file" only; so does a port, unless
it is 0; without host there is no port -/
def NearlyBare (u : Rec) : Prop :=
  (u.host = none ∨ u.host = some (.str []) ∨ u.scheme = u!"file" →
    u.username = [] ∧ u.password = [] ∧ (u.port = none ∨ u.port = some 0)) ∧
  (u.host = none → u.port = none)

end Spec

end Urlstd
