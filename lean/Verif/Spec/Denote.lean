/-
What a text denotes, against a base URL or without one: the whole of URL parsing in the form of rules. Every rule puts a text
together from its parts and says which URL this is; there are no states, no positions and no buffers. `Denotes` is a relation, and
property C83 proves that the parser computes it.
-/
import Verif.Spec.Anatomy
import Verif.Spec.Machine

namespace Urlstd.Spec

/-- what separates segments: a slash and, if the scheme is special, a backslash -/
def Slash (special : Bool) (c : Nat) : Prop := c = c!"/" ∨ (special = true ∧ c = c!"\\")

/-- the text does not begin with a slash -/
def NoSlash (special : Bool) (t : Str) : Prop := ∀ c, t.head? = some c → ¬ Slash special c

instance (sp : Bool) (c : Nat) : Decidable (Slash sp c) := inferInstanceAs (Decidable (_ ∨ _))
instance (sp : Bool) (t : Str) : Decidable (NoSlash sp t) := inferInstanceAs (Decidable (∀ c, t.head? = some c → ¬ Slash sp c))

/-- A reference against a base that is no file URL. -/
inductive Relative (env : Env) (b : Rec) : Str → Except Err Rec → Prop
  /-- a query or a fragment, or nothing at all -/
  | same (q f : Option Str) (ok : TailOK [] q) :
      Relative env b (tailText [] q f)
        (.ok { b with query := (q.map (queryEncode (isSpecial b.scheme))).or b.query, fragment := f.map fragmentEncode })
  /-- a path relative to that of the base -/
  | path (p : List Str) (t : Str) (q f : Option Str) (hp : b.path = .list p) (hne : t ≠ []) (ht : NoSlash (isSpecial b.scheme) t)
      (ok : TailOK t q) :
      Relative env b (tailText t q f)
        (.ok { b with
          path := .list (follow false (parent false p) (segmentsOf (isSpecial b.scheme) t))
          query := q.map (queryEncode (isSpecial b.scheme))
          fragment := f.map fragmentEncode })
  /-- a path from the root -/
  | rooted (s : Nat) (t : Str) (q f : Option Str) (hs : Slash (isSpecial b.scheme) s) (ht : NoSlash (isSpecial b.scheme) t)
      (ok : TailOK t q) :
      Relative env b (s :: tailText t q f)
        (.ok { b with
          path := .list (follow false [] (segmentsOf (isSpecial b.scheme) t))
          query := q.map (queryEncode (isSpecial b.scheme))
          fragment := f.map fragmentEncode })
  /-- two slashes, or more with a special scheme, and everything from the userinfo on -/
  | authority (s1 s2 : Nat) (sl : Str) (p : Parts) (h1 : Slash (isSpecial b.scheme) s1) (h2 : Slash (isSpecial b.scheme) s2)
      (hsl : ∀ c ∈ sl, isSpecial b.scheme = true ∧ Slash true c) (ok : p.OK (isSpecial b.scheme)) :
      Relative env b (s1 :: s2 :: (sl ++ p.text)) (p.url env b.scheme)

/-- A text behind "file:", or a reference against a file URL. -/
inductive FileText (env : Env) (base : Option Rec) : Str → Except Err Rec → Prop
  /-- two slashes and no host -/
  | noHost (s1 s2 : Nat) (path : Str) (q f : Option Str) (h1 : Slash true s1) (h2 : Slash true s2)
      (hp : ∀ c, path.head? = some c → Slash true c) (ok : TailOK path q) :
      FileText env base (s1 :: s2 :: tailText path q f) (.ok (fileURL (some (.str [])) (pathOf u!"file" path) q f))
  /-- two slashes and a host, which the host parser accepts; "localhost" is as good as none -/
  | host (s1 s2 : Nat) (host path : Str) (q f : Option Str) (v : Host) (h1 : Slash true s1) (h2 : Slash true s2) (hne : host ≠ [])
      (hh : ∀ c ∈ host, ¬ AuthorityEnd true c) (hd : isDrive host = false) (hv : (hostParse env host false).res = .ok v)
      (hp : ∀ c, path.head? = some c → Slash true c) (ok : TailOK path q) :
      FileText env base (s1 :: s2 :: (host ++ tailText path q f))
        (.ok (fileURL (some (if v = .str u!"localhost" then .str [] else v)) (pathOf u!"file" path) q f))
  /-- two slashes and a host that the host parser refuses -/
  | badHost (s1 s2 : Nat) (host path : Str) (q f : Option Str) (e : Err) (h1 : Slash true s1) (h2 : Slash true s2) (hne : host ≠ [])
      (hh : ∀ c ∈ host, ¬ AuthorityEnd true c) (hd : isDrive host = false) (he : (hostParse env host false).res = .error e)
      (hp : ∀ c, path.head? = some c → Slash true c) (ok : TailOK path q) :
      FileText env base (s1 :: s2 :: (host ++ tailText path q f)) (.error e)
  /-- two slashes and a drive letter in the place of the host, which belongs to the path -/
  | drive (s1 s2 : Nat) (host path : Str) (q f : Option Str) (h1 : Slash true s1) (h2 : Slash true s2) (hd : isDrive host = true)
      (hp : ∀ c, path.head? = some c → Slash true c) (ok : TailOK path q) :
      FileText env base (s1 :: s2 :: (host ++ tailText path q f))
        (.ok (fileURL (some (.str [])) (follow true [] (segmentsOf true (host ++ path))) q f))
  /-- one slash: a path from the root, with host and drive letter of a base that is a file URL -/
  | rooted (s : Nat) (t : Str) (q f : Option Str) (hs : Slash true s) (ht : NoSlash true t) (ok : TailOK t q) :
      FileText env base (s :: tailText t q f)
        (.ok (fileURL (inheritedHost base) (follow true (inheritedDrive base t) (segmentsOf true t)) q f))
  /-- no slash and no base that is a file URL -/
  | plain (t : Str) (q f : Option Str) (hb : ∀ b, base = some b → b.scheme ≠ u!"file") (ht : NoSlash true t) (ok : TailOK t q) :
      FileText env base (tailText t q f) (.ok (fileURL (some (.str [])) (follow true [] (segmentsOf true t)) q f))
  /-- a path relative to that of a file URL, unless it begins with a drive letter -/
  | path (b : Rec) (p : List Str) (t : Str) (q f : Option Str) (hbase : base = some b) (hb : b.scheme = u!"file")
      (hp : b.path = .list p) (hne : t ≠ []) (ht : NoSlash true t) (ok : TailOK t q) :
      FileText env base (tailText t q f)
        (.ok (fileURL b.host (follow true (if DriveFirst t then [] else parent true p) (segmentsOf true t)) q f))
  /-- a query or a fragment against a file URL -/
  | same (b : Rec) (q f : Option Str) (hbase : base = some b) (hb : b.scheme = u!"file") (hne : q ≠ none ∨ f ≠ none)
      (ok : TailOK [] q) :
      FileText env base (tailText [] q f)
        (.ok { scheme := u!"file", host := b.host, path := b.path, query := (q.map (queryEncode true)).or b.query
               fragment := f.map fragmentEncode })
  /-- nothing at all against a file URL; the additional slash is the defect of C36 -/
  | empty (b : Rec) (p : List Str) (hbase : base = some b) (hb : b.scheme = u!"file") (hp : b.path = .list p) :
      FileText env base [] (.ok { scheme := u!"file", host := b.host, path := .list (p ++ [[]]), query := b.query })

/-- A text without tabs and newlines, and without spaces and controls at either end. -/
inductive Denotes (env : Env) (base : Option Rec) : Str → Except Err Rec → Prop
  /-- behind the scheme "file" -/
  | file (sc r : Str) (x : Except Err Rec) (hsc : SchemeText sc) (hf : toLower sc = u!"file") (h : FileText env base r x) :
      Denotes env base (sc ++ u!":" ++ r) x
  /-- behind another special scheme, which is not that of the base: any number of slashes, and everything from the userinfo on -/
  | special (sc sl : Str) (p : Parts) (hsc : SchemeText sc) (hs : isSpecial (toLower sc) = true) (hf : toLower sc ≠ u!"file")
      (hb : ∀ b, base = some b → b.scheme ≠ toLower sc) (hsl : ∀ c ∈ sl, Slash true c) (ok : p.OK true) :
      Denotes env base (sc ++ u!":" ++ (sl ++ p.text)) (p.url env (toLower sc))
  /-- behind another special scheme, with two slashes: the same for every base -/
  | specialSlashes (sc sl : Str) (p : Parts) (hsc : SchemeText sc) (hs : isSpecial (toLower sc) = true) (hf : toLower sc ≠ u!"file")
      (hsl : ∀ c ∈ sl, Slash true c) (ok : p.OK true) :
      Denotes env base (sc ++ u!"://" ++ (sl ++ p.text)) (p.url env (toLower sc))
  /-- behind the special scheme of the base, without two slashes: a reference -/
  | sameScheme (sc r : Str) (b : Rec) (x : Except Err Rec) (hsc : SchemeText sc) (hs : isSpecial (toLower sc) = true)
      (hf : toLower sc ≠ u!"file") (hbase : base = some b) (hb : b.scheme = toLower sc) (h2 : ∀ t, r ≠ u!"//" ++ t)
      (h : Relative env b r x) :
      Denotes env base (sc ++ u!":" ++ r) x
  /-- behind a scheme that is not special: two slashes, and everything from the userinfo on -/
  | authority (sc : Str) (p : Parts) (hsc : SchemeText sc) (hs : isSpecial (toLower sc) = false) (ok : p.OK false) :
      Denotes env base (sc ++ u!"://" ++ p.text) (p.url env (toLower sc))
  /-- behind a scheme that is not special: one slash, a path without a host -/
  | rooted (sc t : Str) (q f : Option Str) (hsc : SchemeText sc) (hs : isSpecial (toLower sc) = false) (ht : NoSlash false t)
      (ok : TailOK t q) :
      Denotes env base (sc ++ u!":/" ++ tailText t q f)
        (.ok { scheme := toLower sc, path := .list (follow false [] (segmentsOf false t)), query := q.map (queryEncode false)
               fragment := f.map fragmentEncode })
  /-- behind a scheme that is not special: no slash, an opaque path -/
  | opaque (sc t : Str) (q f : Option Str) (hsc : SchemeText sc) (hs : isSpecial (toLower sc) = false) (ht : NoSlash false t)
      (ok : TailOK t q) :
      Denotes env base (sc ++ u!":" ++ tailText t q f)
        (.ok { scheme := toLower sc, path := .opaque (opaqueEncode t), query := q.map (queryEncode false)
               fragment := f.map fragmentEncode })
  /-- no scheme and no base -/
  | noBase (r : Str) (hr : ¬ HasScheme r) (hb : base = none) : Denotes env base r (.error .urlParse)
  /-- a fragment against a base with an opaque path -/
  | opaqueFragment (f : Str) (b : Rec) (t : Str) (hbase : base = some b) (hp : b.path = .opaque t) :
      Denotes env base (u!"#" ++ f)
        (.ok { scheme := b.scheme, path := b.path, query := b.query, fragment := some (fragmentEncode f) })
  /-- any other reference against a base with an opaque path -/
  | opaqueOther (r : Str) (b : Rec) (t : Str) (hr : ¬ HasScheme r) (hbase : base = some b) (hp : b.path = .opaque t)
      (hh : r.head? ≠ some c!"#") : Denotes env base r (.error .urlParse)
  /-- a reference against a file URL -/
  | fileBase (r : Str) (b : Rec) (p : List Str) (x : Except Err Rec) (hr : ¬ HasScheme r) (hbase : base = some b)
      (hp : b.path = .list p) (hf : b.scheme = u!"file") (h : FileText env base r x) : Denotes env base r x
  /-- a reference against another URL -/
  | reference (r : Str) (b : Rec) (p : List Str) (x : Except Err Rec) (hr : ¬ HasScheme r) (hbase : base = some b)
      (hp : b.path = .list p) (hf : b.scheme ≠ u!"file") (h : Relative env b r x) : Denotes env base r x

/-- a base as the parser and the setters produce them: the path of a URL with a special scheme is a list -/
def GoodBase (base : Option Rec) : Prop := ∀ b, base = some b → isSpecial b.scheme = true → ∃ p, b.path = .list p

end Urlstd.Spec
