/-
Specifications for input strings: schemes at the start of an input, ignored characters, slashes.
Independent of the model's helpers.
-/
import Verif.Spec.Url

namespace Urlstd.Spec

/-- ASCII letter -/
def Letter (c : Nat) : Prop := (c!"A" ≤ c ∧ c ≤ c!"Z") ∨ (c!"a" ≤ c ∧ c ≤ c!"z")

/-- a scheme as written in an input: a letter followed by letters, digits, "+", "-" and "." -/
def SchemeText (s : Str) : Prop :=
  ∃ c cs, s = c :: cs ∧ Letter c ∧ ∀ x ∈ cs, Letter x ∨ Digit x ∨ x = c!"+" ∨ x = c!"-" ∨ x = c!"."

instance (c : Nat) : Decidable (Letter c) := inferInstanceAs (Decidable (_ ∨ _))
instance (c : Nat) : Decidable (Digit c) := inferInstanceAs (Decidable (_ ∧ _))

/-- the ASCII letters of a string in lower case -/
def toLower (s : Str) : Str := s.map fun c => if c!"A" ≤ c ∧ c ≤ c!"Z" then c - c!"A" + c!"a" else c

/-- tab, line feed, carriage return -/
def TabOrNewline (c : Nat) : Prop := c = 0x09 ∨ c = 0x0A ∨ c = 0x0D

instance (c : Nat) : Decidable (TabOrNewline c) := inferInstanceAs (Decidable (_ ∨ _))

/-- C0 control or space -/
def C0OrSpace (c : Nat) : Prop := c ≤ 0x1F ∨ c = 0x20

instance (c : Nat) : Decidable (C0OrSpace c) := inferInstanceAs (Decidable (_ ∨ _))

/-- every backslash before the first "?" or "#" replaced by a slash -/
def slashes : Str → Str
  | [] => []
  | c :: cs =>
    if c = c!"?" ∨ c = c!"#" then c :: cs
    else (if c = c!"\\" then c!"/" else c) :: slashes cs

/-- UTF-8 percent-encode with the fragment percent-encode set: C0 controls, characters above "~", space,
quotation mark, "<", ">" and grave accent (https://url.spec.whatwg.org/#fragment-percent-encode-set) -/
def fragmentEncode (s : Str) : Str :=
  percentEncode (fun b => 0x20 ≤ b && b ≤ 0x7E && !(u!" \"<>`").contains b) false (utf8 s)

/-- UTF-8 percent-encode with the query percent-encode set, or the special-query percent-encode set
(https://url.spec.whatwg.org/#query-percent-encode-set) -/
def queryEncode (special : Bool) (s : Str) : Str :=
  percentEncode (fun b => 0x20 ≤ b && b ≤ 0x7E && !(u!" \"#<>").contains b && !(special && b == c!"'")) false (utf8 s)

/-- `s` starts with a scheme -/
def HasScheme (s : Str) : Prop := ∃ sc rest, SchemeText sc ∧ s = sc ++ u!":" ++ rest

/-- the parts of a URL that name whom to contact are equal -/
def SameAuthority (u v : Rec) : Prop :=
  u.scheme = v.scheme ∧ u.username = v.username ∧ u.password = v.password ∧ u.host = v.host ∧ u.port = v.port

end Urlstd.Spec
