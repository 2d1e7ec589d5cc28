/-
Specifications for URL records: which records come from the parser, special schemes, dot segments,
character classes. Independent of the model's helpers.
-/
import Verif.Spec.Text
import Verif.Spec.Host
import Verif.Spec.Idna

namespace Urlstd

/-- the encoder of a legacy codec returns bytes -/
def EncOK : Encoding → Prop
  | .utf8 => True
  | .other f => ∀ c bs, f c = some bs → ∀ b ∈ bs, b < 256

/-- A record obtained from the parser: by `parse_url` without a base, with a base given as a string,
or with a record obtained from the parser as base; with any encoding. -/
inductive Parsed (env : Env) : Rec → Prop
  | alone {s : Str} {e : Encoding} {u : Rec} (hs : Spec.IsStr s) (he : EncOK e)
      (h : (parseUrl env s .none e).res = .ok u) : Parsed env u
  | withString {s b : Str} {e : Encoding} {u : Rec} (hs : Spec.IsStr s) (hb : Spec.IsStr b) (he : EncOK e)
      (h : (parseUrl env s (.str b) e).res = .ok u) : Parsed env u
  | withRecord {s : Str} {b : Rec} {e : Encoding} {u : Rec} (hs : Spec.IsStr s) (hb : Parsed env b) (he : EncOK e)
      (h : (parseUrl env s (.record b) e).res = .ok u) : Parsed env u

/-- a base URL: absent, a string, or a record obtained from the parser -/
def BaseOK (env : Env) : BaseArg → Prop
  | .none => True
  | .str b => Spec.IsStr b
  | .record b => Parsed env b

/-- the number of characters of a base given as a string -/
def BaseArg.length : BaseArg → Nat
  | .none => 0
  | .str b => List.length b
  | .record _ => 0

/-- Some number can exceed the digit limit while parsing an input of at most `n` characters: the
input is longer than the limit, or the IDNA library can turn a domain of at most `4 * n` characters into one
that is longer than half the limit. -/
def LongInput (env : Env) (n : Nat) : Prop :=
  env.maxStrDigits ≠ 0 ∧ (env.maxStrDigits < n ∨
    ∃ d a log, d.length ≤ 4 * n ∧ domainToAscii env d false = ⟨.ok a, log⟩ ∧ env.maxStrDigits < 2 * a.length)

namespace Spec

/-- https://url.spec.whatwg.org/#special-scheme, with the default ports -/
def specialSchemes : List (Str × Option Nat) :=
  [(u!"ftp", some 21), (u!"file", none), (u!"http", some 80), (u!"https", some 443), (u!"ws", some 80),
    (u!"wss", some 443)]

/-- "A special scheme is an ASCII string that is listed in the first column" -/
def Special (scheme : Str) : Prop := ∃ p, (scheme, p) ∈ specialSchemes

/-- lower-case ASCII letter -/
def LowerAlpha (c : Nat) : Prop := c!"a" ≤ c ∧ c ≤ c!"z"
/-- ASCII digit -/
def Digit (c : Nat) : Prop := c!"0" ≤ c ∧ c ≤ c!"9"

/-- a normalized scheme -/
def NormScheme (s : Str) : Prop :=
  ∃ c cs, s = c :: cs ∧ LowerAlpha c ∧
    ∀ x ∈ cs, LowerAlpha x ∨ Digit x ∨ x = c!"+" ∨ x = c!"-" ∨ x = c!"."

/-- "." or "..", percent-encoded in any way -/
def DotSegment (s : Str) : Prop := percentDecode s = u!"." ∨ percentDecode s = u!".."

/-- printable ASCII, including the space -/
def Printable (c : Nat) : Prop := 0x20 ≤ c ∧ c ≤ 0x7E

/-! ### What is claimed of the record of a parsed URL -/

/-- a special URL has a host, not empty unless the scheme is "file", and a list path with at least one
segment -/
def SpecialHasHost (u : Rec) : Prop :=
  Special u.scheme →
    (∃ h, u.host = some h ∧ (h = .str [] → u.scheme = u!"file")) ∧
    ∃ segs, u.path = .list segs ∧ segs ≠ []

/-- an opaque path occurs without host, credentials and port only -/
def OpaqueIsBare (u : Rec) : Prop :=
  ∀ s, u.path = .opaque s → u.host = none ∧ u.username = [] ∧ u.password = [] ∧ u.port = none

/-- the port is absent, or a number up to 65535 that is not the default port of the scheme -/
def PortOK (u : Rec) : Prop :=
  ∀ p, u.port = some p → p ≤ 65535 ∧ (u.scheme, some p) ∉ specialSchemes

/-- without host, or with the empty host, or with the scheme "file", there are no credentials and no
port -/
def BareWithoutHost (u : Rec) : Prop :=
  u.host = none ∨ u.host = some (.str []) ∨ u.scheme = u!"file" →
    u.username = [] ∧ u.password = [] ∧ u.port = none

/-- the segments of a list path -/
def SegmentsOK (u : Rec) : Prop :=
  ∀ segs, u.path = .list segs → ∀ s ∈ segs, ¬ DotSegment s ∧
    ∀ c ∈ s, Printable c ∧ c ≠ c!" " ∧ c ≠ c!"/" ∧ c ≠ c!"?" ∧ c ≠ c!"#" ∧ (Special u.scheme → c ≠ c!"\\")

/-- the query -/
def QueryOK (u : Rec) : Prop :=
  ∀ q, u.query = some q → ∀ c ∈ q, Printable c ∧ c ≠ c!" " ∧ c ≠ c!"#" ∧ c ≠ c!"\"" ∧ c ≠ c!"<" ∧ c ≠ c!">" ∧
    (Special u.scheme → c ≠ c!"'")

/-- the fragment -/
def FragmentOK (u : Rec) : Prop :=
  ∀ f, u.fragment = some f → ∀ c ∈ f, Printable c ∧ c ≠ c!" " ∧ c ≠ c!"\"" ∧ c ≠ c!"<" ∧ c ≠ c!">" ∧ c ≠ c!"`"

/-- The serialization is printable ASCII; a space occurs in an opaque path only. -/
def HrefOK (u : Rec) : Prop :=
  (∀ c ∈ u.serialize, Printable c) ∧
  (∀ segs, u.path = .list segs → c!" " ∉ u.serialize) ∧
  (∀ s, u.path = .opaque s → ∃ pre post, u.serialize = pre ++ s ++ post ∧ c!" " ∉ pre ∧ c!" " ∉ post)

end Spec

end Urlstd
