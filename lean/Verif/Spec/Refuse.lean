/-
The reasons why a text is no URL, for property C94.
-/
import Verif.Spec.Denote

namespace Urlstd.Spec

/-- What can stand in front of an authority, and the scheme that the URL will have. -/
inductive Front (base : Option Rec) : Str → Str → Prop
  /-- "scheme:" and any number of slashes, for a special scheme that is not that of the base -/
  | special (sc sl : Str) (hsc : SchemeText sc) (hs : isSpecial (toLower sc) = true) (hf : toLower sc ≠ u!"file")
      (hb : ∀ b, base = some b → b.scheme ≠ toLower sc) (hsl : ∀ c ∈ sl, Slash true c) : Front base (sc ++ u!":" ++ sl) (toLower sc)
  /-- "scheme:" and two or more slashes, for a special scheme -/
  | specialSlashes (sc : Str) (s1 s2 : Nat) (sl : Str) (hsc : SchemeText sc) (hs : isSpecial (toLower sc) = true)
      (hf : toLower sc ≠ u!"file") (h1 : Slash true s1) (h2 : Slash true s2) (hsl : ∀ c ∈ sl, Slash true c) :
      Front base (sc ++ u!":" ++ s1 :: s2 :: sl) (toLower sc)
  /-- "scheme://" for a scheme that is not special -/
  | other (sc : Str) (hsc : SchemeText sc) (hs : isSpecial (toLower sc) = false) : Front base (sc ++ u!"://") (toLower sc)
  /-- "file:" and two slashes -/
  | file (sc : Str) (s1 s2 : Nat) (hsc : SchemeText sc) (hf : toLower sc = u!"file") (h1 : Slash true s1) (h2 : Slash true s2) :
      Front base (sc ++ u!":" ++ [s1, s2]) u!"file"
  /-- two slashes, with a file URL as base -/
  | fileReference (b : Rec) (p : List Str) (s1 s2 : Nat) (hbase : base = some b) (hp : b.path = .list p) (hf : b.scheme = u!"file")
      (h1 : Slash true s1) (h2 : Slash true s2) : Front base [s1, s2] u!"file"
  /-- two slashes, or more if the scheme is special, with another base -/
  | reference (b : Rec) (p : List Str) (s1 s2 : Nat) (sl : Str) (hbase : base = some b) (hp : b.path = .list p)
      (hf : b.scheme ≠ u!"file") (h1 : Slash (isSpecial b.scheme) s1) (h2 : Slash (isSpecial b.scheme) s2)
      (hsl : ∀ c ∈ sl, isSpecial b.scheme = true ∧ Slash true c) : Front base (s1 :: s2 :: sl) b.scheme

/-- An authority extends to the first "/", "?" or "#", or "\" if the scheme is special. Behind further slashes, which count for
nothing with a special scheme other than "file", it does not begin with one. -/
def Extent (scheme authority rest : Str) : Prop :=
  (∀ c ∈ authority, ¬ AuthorityEnd (isSpecial scheme) c) ∧ (∀ c, rest.head? = some c → AuthorityEnd (isSpecial scheme) c) ∧
  (isSpecial scheme = true → scheme ≠ u!"file" → authority = [] → NoSlash true rest)

/-- a port that is refused -/
def PortRefused (env : Env) (x : Str) (e : Err) : Prop :=
  ((∃ c ∈ x, ¬ Digit c) ∧ e = .urlParse) ∨
  ((∀ c ∈ x, Digit c) ∧ env.maxStrDigits ≠ 0 ∧ env.maxStrDigits < x.length ∧ e = .valueError) ∨
  ((∀ c ∈ x, Digit c) ∧ ¬ (env.maxStrDigits ≠ 0 ∧ env.maxStrDigits < x.length) ∧ decimal x > 65535 ∧ e = .urlParse)

/-- An authority that is refused, and the exception. That of a file URL is a host; a drive letter is part of the path. -/
def AuthorityRefused (env : Env) (scheme a : Str) (e : Err) : Prop :=
  if scheme = u!"file" then a ≠ [] ∧ isDrive a = false ∧ (hostParse env a false).res = .error e
  else ∃ userinfo host port, (Parts.mk userinfo host port [] none none).OK (isSpecial scheme) ∧
    a = (Parts.mk userinfo host port [] none none).text ∧
    -- a host is missing
    ((host = [] ∧ (isSpecial scheme = true ∨ userinfo ≠ none ∨ port ≠ none) ∧ e = .urlParse) ∨
    -- the host is refused
      (host ≠ [] ∧ (hostParse env host (!isSpecial scheme)).res = .error e) ∨
    -- the port is refused
      (host ≠ [] ∧ (∃ v, (hostParse env host (!isSpecial scheme)).res = .ok v) ∧ ∃ x, port = some x ∧ PortRefused env x e))

/-- The reasons why a text without tabs and newlines, and without spaces and controls around it, is no URL: it has no scheme, and
there is no base, or one with an opaque path, to which only a fragment can be added; or it has an authority that is refused. -/
def Refused (env : Env) (base : Option Rec) (t : Str) (e : Err) : Prop :=
  (e = .urlParse ∧ ¬ HasScheme t ∧
    (base = none ∨ ∃ b x, base = some b ∧ b.path = .opaque x ∧ t.head? ≠ some c!"#")) ∨
  ∃ front scheme a rest, Front base front scheme ∧ Extent scheme a rest ∧ t = front ++ a ++ rest ∧ AuthorityRefused env scheme a e

end Urlstd.Spec
