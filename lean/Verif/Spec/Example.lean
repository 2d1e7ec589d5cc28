/-
A concrete environment, used to show that hypotheses about the environment are satisfiable and to
compute witnesses.
-/
import Verif.Url

namespace Urlstd

/-- An environment with an IDNA library that lower-cases ASCII domains and refuses all others,
CPython's default digit limit, and the special schemes registered. -/
def exEnv : Env where
  nameToAscii := fun _ s => if s.all (· < 128) then .ok (lower s) 0 else .failure
  nameToUnicode := fun _ s => .ok s 0
  maxStrDigits := 4300
  uniSpace := fun _ => false
  uniDecimal := fun _ => none
  uniLower := fun s => s
  registered := [u!"http", u!"https", u!"file", u!"ftp", u!"ws", u!"wss", u!"mailto"]
  validity := false

/-- so that results can be compared by computation -/
instance {α : Type} [DecidableEq α] : DecidableEq (Except Err α)
  | .ok a, .ok b => if h : a = b then .isTrue (by rw [h]) else .isFalse (by simpa using h)
  | .error a, .error b => if h : a = b then .isTrue (by rw [h]) else .isFalse (by simpa using h)
  | .ok _, .error _ => .isFalse (by simp)
  | .error _, .ok _ => .isFalse (by simp)

end Urlstd
