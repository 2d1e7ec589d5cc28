/-
The texts that the URL parser accepts without a validation error, as a grammar.

The standard gives a grammar of valid URL strings (`Spec/Writing.lean`), and says that its parser may accept other strings
without a validation error. This file has the grammar of all of these strings. It has one rule for what follows a scheme,
or stands without a scheme: "//" and an authority, or a path that does not start with "//". The hosts and the lengths of
numerals are parameters. Nothing here refers to the model's parser.
-/
import Verif.Spec.Writing

namespace Urlstd.Spec

/-- a path, a query and a fragment; the path is any text of URL units, the query and the fragment are as in a valid URL
string -/
def PathText (t : Str) : Prop :=
  ∃ p q f, t = p ++ (q ++ f) ∧ URLUnits (fun c => c = c!"?") p ∧ QueryPart q ∧ FragmentPart f

/-- the same behind an authority: nothing, or a text that starts with "/", "?" or "#" -/
def PathBehind (t : Str) : Prop := PathText t ∧ ∀ c, t.head? = some c → c = c!"/" ∨ c = c!"?" ∨ c = c!"#"

/-- the last bracket of the text is an opening one -/
def OpenBracket (a : Str) : Prop := ∃ x y, a = x ++ c!"[" :: y ∧ c!"]" ∉ y

/-- a text that is a host as a whole: nothing in it ends an authority, and every ":" is in brackets -/
def HostSpan (special : Bool) (h : Str) : Prop :=
  (∀ c ∈ h, c ∉ u!"/?#@" ∧ (special = true → c ≠ c!"\\")) ∧ ∀ a b, h = a ++ c!":" :: b → OpenBracket a

/-- a host, an optional port, and a path -/
def AuthorityText (host : Bool → Str → Prop) (digits : Nat → Prop) (special : Bool) (t : Str) : Prop :=
  ∃ h port r, t = h ++ (port ++ r) ∧ HostSpan special h ∧ host special h ∧ (special = true → h ≠ []) ∧ PathBehind r ∧
    (port = [] ∨ ∃ d, port = c!":" :: d ∧ PortString d ∧ digits d.length ∧ h ≠ [] ∧ ¬ OpenBracket h)

/-- a letter and ":" or "|" -/
def DriveLetter (h : Str) : Prop := ∃ a b, h = [a, b] ∧ Letter a ∧ (b = c!":" ∨ b = c!"|")

/-- the host of a file URL, if there is one, and a path -/
def FileAuthority (host : Bool → Str → Prop) (t : Str) : Prop :=
  ∃ h r, t = h ++ r ∧ (∀ c ∈ h, c ∉ u!"/?#\\") ∧ (h = [] ∨ host true h) ∧ ¬ DriveLetter h ∧ PathBehind r

/-- what follows "//" in a URL with the scheme `scheme` -/
def BehindSlashes (host : Bool → Str → Prop) (digits : Nat → Prop) (scheme t : Str) : Prop :=
  if scheme = u!"file" then FileAuthority host t else AuthorityText host digits (isSpecial scheme) t

/-- "//" and an authority, or a path without "//" -/
def HierarchicalText (host : Bool → Str → Prop) (digits : Nat → Prop) (scheme t : Str) : Prop :=
  (∃ r, t = u!"//" ++ r ∧ BehindSlashes host digits scheme r) ∨ (¬ u!"//" <+: t ∧ PathText t)

/-- with a scheme: a special one needs "//" -/
def ErrorFreeAbsolute (host : Bool → Str → Prop) (digits : Nat → Prop) (s : Str) : Prop :=
  ∃ sc rest, SchemeText sc ∧ s = sc ++ c!":" :: rest ∧ HierarchicalText host digits (toLower sc) rest ∧
    (isSpecial (toLower sc) = true → u!"//" <+: rest)

/-- without a scheme: a base with an opaque path takes a fragment only -/
def ErrorFreeRelative (host : Bool → Str → Prop) (digits : Nat → Prop) (b : Rec) (s : Str) : Prop :=
  match b.path with
  | .opaque _ => ∃ f, s = c!"#" :: f ∧ URLUnits (fun _ => False) f
  | .list _ => HierarchicalText host digits b.scheme s

/-- nothing is removed from the text before it is parsed: no C0 control or space at its ends, no tab or newline in it -/
def Untouched (s : Str) : Prop :=
  (∀ c, s.head? = some c → 0x20 < c) ∧ (∀ c, s.getLast? = some c → 0x20 < c) ∧ ∀ c ∈ s, c ≠ 9 ∧ c ≠ 10 ∧ c ≠ 13

/-- The texts that are parsed without a validation error, against the base URL `base`. -/
def ErrorFree (host : Bool → Str → Prop) (digits : Nat → Prop) (base : Option Rec) (s : Str) : Prop :=
  Untouched s ∧ (ErrorFreeAbsolute host digits s ∨
    ¬ HasScheme s ∧ ∃ b, base = some b ∧ ErrorFreeRelative host digits b s)

/-- the scheme that the text names, or else the scheme of the base -/
def NamedScheme (base : Option Rec) (s scheme : Str) : Prop :=
  (∃ sc rest, SchemeText sc ∧ s = sc ++ c!":" :: rest ∧ scheme = toLower sc) ∨
    (¬ HasScheme s ∧ ∃ b, base = some b ∧ scheme = b.scheme)

end Urlstd.Spec
