/-
What an assignment to an attribute of a URL does, in the form of rules: every rule takes the assigned text apart and says what
becomes of the URL. There are no states, no positions and no state overrides. Property C92 proves that the setters do this.
-/
import Verif.Spec.Api
import Verif.Spec.Denote
import Verif.Spec.HostText
import Verif.Spec.Setter

namespace Urlstd.Spec

/-- the text without one character `c` at the front, if there is one -/
def Unmarked (c : Nat) (v t : Str) : Prop := v = c :: t ∨ (v = t ∧ t.head? ≠ some c)

/-- the digits at the front of a text -/
def LeadingDigits (t d : Str) : Prop := (∀ c ∈ d, Digit c) ∧ ∃ r, t = d ++ r ∧ ∀ c, r.head? = some c → ¬ Digit c

/-- the URL has credentials, or a port other than 0 -/
def Occupied (u : Rec) : Prop := u.username ≠ [] ∨ u.password ≠ [] ∨ ∃ p, u.port = some p ∧ p ≠ 0

/-- A scheme can be replaced by another one if both are special or none is; "file" must not get credentials or a port, and a "file"
URL without a host remains one. -/
def Replaceable (u : Rec) (sc : Str) : Prop :=
  isSpecial u.scheme = isSpecial sc ∧ ¬ (sc = u!"file" ∧ Occupied u) ∧
    ¬ (u.scheme = u!"file" ∧ (u.host = none ∨ u.host = some (.str [])))

/-- a port that is the default of the scheme goes -/
def portFor (sc : Str) : Option Nat → Option Nat
  | some p => if isDefault sc p then none else some p
  | none => none

/-- a text assigned to `port`: the digits at the front count, and there have to be some -/
inductive AssignsPort (env : Env) (u : Rec) : Str → Except Err Unit → Rec → Prop
  | nothing (t : Str) (h : LeadingDigits t []) : AssignsPort env u t (.ok ()) u
  | port (t d : Str) (n : Option Nat) (hd : d ≠ []) (h : LeadingDigits t d) (hn : portOf env u.scheme (some d) = .ok n) :
      AssignsPort env u t (.ok ()) { u with port := n }
  | refused (t d : Str) (e : Err) (hd : d ≠ []) (h : LeadingDigits t d) (he : portOf env u.scheme (some d) = .error e) :
      AssignsPort env u t (.error e) u

/-- a host without anything behind it, for a scheme other than "file" -/
inductive AssignsName (env : Env) (u : Rec) : Str → Except Err Unit → Rec → Prop
  /-- a special URL needs a host -/
  | needed (h : isSpecial u.scheme = true) : AssignsName env u [] (.error .urlParse) u
  /-- and so do credentials and a port -/
  | kept (h : isSpecial u.scheme = false) (ho : Occupied u) : AssignsName env u [] (.ok ()) u
  | empty (h : isSpecial u.scheme = false) (ho : ¬ Occupied u) : AssignsName env u [] (.ok ()) { u with host := some (.str []) }
  | host (b : Str) (v : Host) (hb : b ≠ []) (hv : (hostParse env b (!isSpecial u.scheme)).res = .ok v) :
      AssignsName env u b (.ok ()) { u with host := some v }
  | refused (b : Str) (e : Err) (hb : b ≠ []) (he : (hostParse env b (!isSpecial u.scheme)).res = .error e) :
      AssignsName env u b (.error e) u

/-- a text assigned to `host` (`port = true`) or `hostname` -/
inductive AssignsHost (env : Env) (u : Rec) (port : Bool) : Str → Except Err Unit → Rec → Prop
  /-- a "file" URL may have no host; "localhost" is as good as none -/
  | fileNone (r : Str) (hf : u.scheme = u!"file") (hr : ∀ c, r.head? = some c → AuthorityEnd true c) :
      AssignsHost env u port r (.ok ()) { u with host := some (.str []) }
  | file (b r : Str) (v : Host) (hf : u.scheme = u!"file") (hne : b ≠ []) (hb : ∀ c ∈ b, ¬ AuthorityEnd true c)
      (hr : ∀ c, r.head? = some c → AuthorityEnd true c) (hv : (hostParse env b false).res = .ok v) :
      AssignsHost env u port (b ++ r) (.ok ()) { u with host := some (if v = .str u!"localhost" then .str [] else v) }
  | fileRefused (b r : Str) (e : Err) (hf : u.scheme = u!"file") (hne : b ≠ []) (hb : ∀ c ∈ b, ¬ AuthorityEnd true c)
      (hr : ∀ c, r.head? = some c → AuthorityEnd true c) (he : (hostParse env b false).res = .error e) :
      AssignsHost env u port (b ++ r) (.error e) u
  /-- a host; what follows the end of the authority does not count -/
  | name (b r : Str) (x : Except Err Unit) (w : Rec) (hf : u.scheme ≠ u!"file") (hb : HostPart (isSpecial u.scheme) b)
      (hr : ∀ c, r.head? = some c → AuthorityEnd (isSpecial u.scheme) c) (h : AssignsName env u b x w) :
      AssignsHost env u port (b ++ r) x w
  /-- a port without a host -/
  | noName (r : Str) (hf : u.scheme ≠ u!"file") : AssignsHost env u port (u!":" ++ r) (.error .urlParse) u
  /-- a host and a port: not for `hostname` -/
  | ignored (b r : Str) (hp : port = false) (hf : u.scheme ≠ u!"file") (hne : b ≠ []) (hb : HostPart (isSpecial u.scheme) b)
      (hc : Closed b) : AssignsHost env u port (b ++ u!":" ++ r) (.ok ()) u
  | both (b r : Str) (v : Host) (x : Except Err Unit) (w : Rec) (hp : port = true) (hf : u.scheme ≠ u!"file") (hne : b ≠ [])
      (hb : HostPart (isSpecial u.scheme) b) (hc : Closed b) (hv : (hostParse env b (!isSpecial u.scheme)).res = .ok v)
      (h : AssignsPort env { u with host := some v } r x w) : AssignsHost env u port (b ++ u!":" ++ r) x w
  | refused (b r : Str) (e : Err) (hp : port = true) (hf : u.scheme ≠ u!"file") (hne : b ≠ [])
      (hb : HostPart (isSpecial u.scheme) b) (hc : Closed b) (he : (hostParse env b (!isSpecial u.scheme)).res = .error e) :
      AssignsHost env u port (b ++ u!":" ++ r) (.error e) u

/-- a text assigned to `pathname`, and the path -/
inductive AssignsPath (u : Rec) : Str → List Str → Prop
  | none (h : isSpecial u.scheme = false) (hh : u.host ≠ Option.none) : AssignsPath u [] []
  | root (h : isSpecial u.scheme = true ∨ u.host = Option.none) : AssignsPath u [] [[]]
  | slash (s : Nat) (t : Str) (h : Slash (isSpecial u.scheme) s) :
      AssignsPath u (s :: t) (follow (isFile u.scheme) [] (segmentsOf (isSpecial u.scheme) t))
  | bare (t : Str) (hne : t ≠ []) (h : NoSlash (isSpecial u.scheme) t) :
      AssignsPath u t (follow (isFile u.scheme) [] (segmentsOf (isSpecial u.scheme) t))

/-- An assignment to an attribute: whether it raises, and the URL afterwards. Tabs and newlines do not count, except in credentials,
for the question whether the text is empty, and in front of the "?" or "#". -/
inductive Assigns (env : Env) (u : Rec) : Op → Except Err Unit → Rec → Prop
  | href (v : Str) (w : Rec) (h : Denotes env none (dropTabs (stripC0 v)) (.ok w)) : Assigns env u (.href v) (.ok ()) w
  | hrefRefused (v : Str) (e : Err) (h : Denotes env none (dropTabs (stripC0 v)) (.error e)) : Assigns env u (.href v) (.error e) u
  | protocol (v sc r : Str) (hsc : SchemeText sc) (hv : dropTabs v ++ u!":" = sc ++ u!":" ++ r) (h : Replaceable u (toLower sc)) :
      Assigns env u (.protocol v) (.ok ()) { u with scheme := toLower sc, port := portFor (toLower sc) u.port }
  | protocolKept (v sc r : Str) (hsc : SchemeText sc) (hv : dropTabs v ++ u!":" = sc ++ u!":" ++ r) (h : ¬ Replaceable u (toLower sc)) :
      Assigns env u (.protocol v) (.ok ()) u
  | protocolRefused (v : Str) (h : ¬ HasScheme (dropTabs v ++ u!":")) : Assigns env u (.protocol v) (.error .urlParse) u
  | username (v : Str) (h : ¬ CannotHaveUPP u) : Assigns env u (.username v) (.ok ()) { u with username := userinfoEncode v }
  | usernameKept (v : Str) (h : CannotHaveUPP u) : Assigns env u (.username v) (.ok ()) u
  | password (v : Str) (h : ¬ CannotHaveUPP u) : Assigns env u (.password v) (.ok ()) { u with password := userinfoEncode v }
  | passwordKept (v : Str) (h : CannotHaveUPP u) : Assigns env u (.password v) (.ok ()) u
  | host (v : Str) (x : Except Err Unit) (w : Rec) (hp : ∀ p, u.path ≠ .opaque p) (h : AssignsHost env u true (dropTabs v) x w) :
      Assigns env u (.host v) x w
  | hostKept (v p : Str) (hp : u.path = .opaque p) : Assigns env u (.host v) (.ok ()) u
  | hostname (v : Str) (x : Except Err Unit) (w : Rec) (hp : ∀ p, u.path ≠ .opaque p) (h : AssignsHost env u false (dropTabs v) x w) :
      Assigns env u (.hostname v) x w
  | hostnameKept (v p : Str) (hp : u.path = .opaque p) : Assigns env u (.hostname v) (.ok ()) u
  | portOff (h : ¬ CannotHaveUPP u) : Assigns env u (.port []) (.ok ()) { u with port := none }
  | port (v : Str) (x : Except Err Unit) (w : Rec) (hc : ¬ CannotHaveUPP u) (hv : v ≠ []) (h : AssignsPort env u (dropTabs v) x w) :
      Assigns env u (.port v) x w
  | portKept (v : Str) (h : CannotHaveUPP u) : Assigns env u (.port v) (.ok ()) u
  | pathname (v : Str) (p : List Str) (hp : ∀ p, u.path ≠ .opaque p) (h : AssignsPath u (dropTabs v) p) :
      Assigns env u (.pathname v) (.ok ()) { u with path := .list p }
  | pathnameKept (v p : Str) (hp : u.path = .opaque p) : Assigns env u (.pathname v) (.ok ()) u
  | searchOff : Assigns env u (.search []) (.ok ()) (stripOpaque { u with query := none })
  | search (v t : Str) (hv : v ≠ []) (h : Unmarked c!"?" v t) :
      Assigns env u (.search v) (.ok ()) { u with query := some (queryEncode (isSpecial u.scheme) (dropTabs t)) }
  | hashOff : Assigns env u (.hash []) (.ok ()) (stripOpaque { u with fragment := none })
  | hash (v t : Str) (hv : v ≠ []) (h : Unmarked c!"#" v t) :
      Assigns env u (.hash v) (.ok ()) { u with fragment := some (fragmentEncode (dropTabs t)) }

/-- an assignment, as opposed to a change of the search parameters, of a text -/
def Assignment : Op → Prop
  | .href v | .protocol v | .username v | .password v | .host v | .hostname v | .port v | .pathname v | .search v | .hash v => IsStr v
  | _ => False

/-- the search parameters after an operation: those of the new query after an assignment to `search` or a successful one to `href` -/
def paramsAfter (old : Params) (w : Rec) : Op → Except Err Unit → Params
  | .search _, _ => queryList w.query
  | .href _, .ok _ => queryList w.query
  | _, _ => old

end Urlstd.Spec
