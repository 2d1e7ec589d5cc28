/-
Specifications for origins and for `urllib.parse.ParseResult`.
-/
import Verif.Spec.Url

namespace Urlstd.Spec

/-- schemes whose URLs have a tuple origin (https://url.spec.whatwg.org/#concept-url-origin) -/
def tupleOriginSchemes : List Str := [u!"ftp", u!"http", u!"https", u!"ws", u!"wss"]

/-- a base given as an optional string -/
def strBase : Option Str → BaseArg
  | none => .none
  | some b => .str b

/-- `urllib.parse.urlunparse`, except that `authority` says whether to write "//" and `dot` whether to
write "/." in front of the path, which the six components do not tell. -/
def unsplit (authority dot : Bool) (r : ParseResult) : Str :=
  r.scheme ++ u!":" ++ (if authority then u!"//" ++ r.netloc else r.netloc) ++ (if dot then u!"/." else []) ++ r.path ++
    (if r.params = [] then [] else u!";" ++ r.params) ++ (if r.query = [] then [] else u!"?" ++ r.query) ++
    (if r.fragment = [] then [] else u!"#" ++ r.fragment)

/-- The URL serializer writes "/." if the host is null and the path has several segments the first of
which is empty (https://url.spec.whatwg.org/#url-serializing step 3). -/
def NeedsDot (u : Rec) : Prop := u.host = none ∧ ∃ s t, u.path = .list ([] :: s :: t)

instance (u : Rec) : Decidable (NeedsDot u) :=
  match h : u.host, h' : u.path with
  | none, .list ([] :: s :: t) => .isTrue ⟨h, s, t, h'⟩
  | some _, _ => .isFalse fun hh => by rw [hh.1] at h; cases h
  | _, .opaque _ => .isFalse fun ⟨_, s, t, hh⟩ => by rw [hh] at h'; cases h'
  | _, .list [] => .isFalse fun ⟨_, s, t, hh⟩ => by rw [hh] at h'; cases h'
  | _, .list [_] => .isFalse fun ⟨_, s, t, hh⟩ => by rw [hh] at h'; cases h'
  | _, .list ((_ :: _) :: _) => .isFalse fun ⟨_, s, t, hh⟩ => by rw [hh] at h'; cases h'

end Urlstd.Spec
