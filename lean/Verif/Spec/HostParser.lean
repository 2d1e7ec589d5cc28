/-
The URL Standard's host parser (July 2023), and which texts the state machine hands to it.
https://url.spec.whatwg.org/#host-parsing

The IDNA library is a parameter: what it returns for a name, and its error bits.
-/
import Verif.Spec.Machine

namespace Urlstd.Spec

/-! ### Domain to ASCII -/

/-- The errors of ICU's `UIDNA_ERROR_*` that Unicode ToASCII with CheckHyphens = false and VerifyDnsLength = false does
not have: EMPTY_LABEL (bit 0), LABEL_TOO_LONG (1), DOMAIN_NAME_TOO_LONG (2), LEADING_HYPHEN (3), TRAILING_HYPHEN (4),
HYPHEN_3_4 (5). -/
def toleratedBits : List Nat := [0, 1, 2, 3, 4, 5]

/-- no error bit other than the tolerated ones is set -/
def noOtherError (errors : Nat) : Prop := ∀ i, i ≤ errors → errors.testBit i = true → i ∈ toleratedBits

instance (errors : Nat) : Decidable (noOtherError errors) := by unfold noOtherError; infer_instance

/-- https://url.spec.whatwg.org/#concept-domain-to-ascii with beStrict = false: failure if ToASCII records an error or
the result is the empty string. -/
def domainToASCII (icu : Str → IcuOut) (domain : Str) : Option Str :=
  match icu domain with
  | .failure => none
  | .ok result errors => if noOtherError errors ∧ result ≠ [] then some result else none

/-! ### Host parser -/

/-- https://url.spec.whatwg.org/#concept-opaque-host-parser -/
def opaqueHost (input : Str) : Option Str :=
  if ∃ c ∈ input, ForbiddenHostCP c then none else some (input.flatMap (encodeCP c0Set))

/-- https://url.spec.whatwg.org/#concept-host-parser with the domain-to-ASCII algorithm as a parameter -/
def hostParserWith (toASCII : Str → Option Str) (input : Str) (isOpaque : Bool) : Option Host :=
  if input.head? = some c!"[" then
    if input.getLast? ≠ some c!"]" then none else (ipv6Parse input.tail.dropLast).map Host.ipv6
  else if isOpaque then (opaqueHost input).map Host.str
  else
    match toASCII (utf8Decode (percentDecode (utf8 input))) with
    | none => none
    | some ascii =>
      if ∃ c ∈ ascii, ForbiddenDomainCP c then none
      else if endsInANumber ascii then (ipv4Parse ascii).map Host.ipv4
      else some (.str ascii)

/-- the host parser with an IDNA library -/
def hostParser (icu : Str → IcuOut) : Str → Bool → Option Host := hostParserWith (domainToASCII icu)

/-! ### Deviations of the code, as exclusions -/

/-- none of the three kinds of text for which C15 fails: a leading ":::", a dot before a colon, a final "::" that is the
eighth colon -/
def Regular6 (s : Str) : Prop :=
  (∀ t, s ≠ u!":::" ++ t) ∧ (∀ x y, s = x ++ c!"." :: y → c!":" ∉ y) ∧ ¬ (s.count c!":" = 8 ∧ ∃ t, s = t ++ u!"::")

/-- none of the texts for which C12 fails: a numeral of Python only, or the last part and an earlier part above 255 -/
def Regular4 (s : Str) : Prop :=
  (∀ p, (ipv4Parts s).getLast? = some p → StrictPart p) ∧
  (endsInANumber s = true → (∀ p ∈ ipv4Parts s, StrictPart p) ∧
    ∀ ns, (ipv4Parts s).mapM ipv4Number = some ns → ns.getLastD 0 > 255 → ∀ v ∈ ns.dropLast, v ≤ 255)

/-- a host text without these deviations -/
def RegularHost (toASCII : Str → Option Str) (t : Str) (isOpaque : Bool) : Prop :=
  (∀ x, t = u!"[" ++ x ++ u!"]" → Regular6 x) ∧
  (isOpaque = false → t.head? ≠ some c!"[" → ∀ a, toASCII (utf8Decode (percentDecode (utf8 t))) = some a → Regular4 a)

/-! ### The texts that the machine hands to the host parser -/

/-- the run of the state calls the host parser on the buffer -/
def asksHost (K : Ctx) (c : Option Nat) (k : Cfg) : Bool :=
  let u := k.url
  let special := isSpecial u.scheme
  let ov := K.override.isSome
  match k.state with
  | .host | .hostname =>
    !(ov && u.scheme == u!"file") &&
    (if c == some c!":" && !k.inside then k.buffer != [] && K.override != some .hostname
     else endsAuthority u c && !(special && k.buffer == []) &&
       !(ov && k.buffer == [] && (hasCredentials u || u.port.isSome)))
  | .fileHost =>
    (c == none || c == some c!"/" || c == some c!"\\" || c == some c!"?" || c == some c!"#") &&
    !(!ov && isDrive k.buffer) && k.buffer != []
  | _ => false

/-- during the parse from `k` on, the host parser is called on `t` -/
inductive Asks (K : Ctx) (input : Str) : Cfg → Str → Bool → Prop
  | now {k : Cfg} (h : asksHost K (codePoint input k.pointer) k = true) : Asks K input k k.buffer (!isSpecial k.url.scheme)
  | later {k k' : Cfg} {t : Str} {m : Bool}
      (h : runState K (codePoint input k.pointer) (remaining input k.pointer) k = .go k')
      (he : k'.pointer ≠ input.length) (hn : Asks K input { k' with pointer := k'.pointer + 1 } t m) : Asks K input k t m

/-- The basic URL parser without url and state override calls the host parser on `t`. -/
def ParseAsks (hostParse : Str → Bool → Option Host) (input : Str) (base : Option Rec) (e : Encoding) (t : Str)
    (m : Bool) : Prop :=
  Asks ⟨base, encoder e, none, hostParse⟩ (dropTabs (stripC0 input)) (.start .schemeStart {}) t m

/-- the texts as a list, with a bound on the number of runs -/
def asked (K : Ctx) (input : Str) : Nat → Cfg → Option (List (Str × Bool))
  | 0, _ => none
  | n + 1, k =>
    let now := if asksHost K (codePoint input k.pointer) k then [(k.buffer, !isSpecial k.url.scheme)] else []
    match runState K (codePoint input k.pointer) (remaining input k.pointer) k with
    | .go k' =>
      if k'.pointer = input.length then some now
      else (asked K input n { k' with pointer := k'.pointer + 1 }).map (now ++ ·)
    | _ => some now

theorem asks_asked {K : Ctx} {input : Str} {k : Cfg} {t : Str} {m : Bool} (ha : Asks K input k t m) :
    ∀ {n : Nat} {l : List (Str × Bool)}, asked K input n k = some l → (t, m) ∈ l := by
  induction ha with
  | now h =>
    intro n l hl
    cases n with
    | zero => cases hl
    | succ n =>
      unfold asked at hl
      rw [if_pos h] at hl
      dsimp only at hl
      split at hl
      · split at hl
        · cases hl; simp
        · cases hr : asked K input n _ with
          | none => rw [hr] at hl; cases hl
          | some l' => rw [hr] at hl; cases hl; simp
      · cases hl; simp
  | later h he hn ih =>
    intro n l hl
    cases n with
    | zero => cases hl
    | succ n =>
      unfold asked at hl
      dsimp only at hl
      rw [h] at hl
      dsimp only at hl
      rw [if_neg he] at hl
      cases hr : asked K input n _ with
      | none => rw [hr] at hl; cases hl
      | some l' =>
        rw [hr] at hl
        cases hl
        exact List.mem_append.2 (.inr (ih hr))

end Urlstd.Spec
