/-
The validation errors of the URL Standard's host parser (July 2023), in the order in which they are reported.
https://url.spec.whatwg.org/#host-parsing

Nothing here refers to the model's host parser or to its logs.
-/
import Verif.Spec.Reports

namespace Urlstd.Spec

/-! ### IPv6: https://url.spec.whatwg.org/#concept-ipv6-parser

The algorithms of Spec/Host.lean once more, with the validation error in place of "failure". -/

/-- step 6.5.5.4: the digits of one IPv4 number -/
def v4DigitsE (value : Option Nat) : Str → Except VErr (Option Nat × Str)
  | [] => .ok (value, [])
  | c :: cs =>
    if isDigit c then
      match v4Step value (c - c!"0") with
      | none => .error .ipv4InIPv6InvalidCodePoint
      | some v => if v > 255 then .error .ipv4InIPv6OutOfRangePart else v4DigitsE (some v) cs
    else .ok (value, c :: cs)

/-- step 6.5.5 and 6.5.6, with `k = 4 - numbersSeen` -/
def v4LoopE : (k : Nat) → (addr : List Nat) → (pieceIndex : Nat) → Str → Except VErr (List Nat × Nat)
  | 0, addr, pieceIndex, s => if s = [] then .ok (addr, pieceIndex) else .error .ipv4InIPv6InvalidCodePoint
  | k + 1, addr, pieceIndex, s =>
    if s = [] then .error .ipv4InIPv6TooFewParts
    else
      let s' : Option Str := if k + 1 = 4 then some s else match s with
        | 46 :: t => some t
        | _ => none
      match s' with
      | none => .error .ipv4InIPv6InvalidCodePoint
      | some [] => .error .ipv4InIPv6InvalidCodePoint
      | some (c :: t) =>
        if isDigit c then
          match v4DigitsE none (c :: t) with
          | .error e => .error e
          | .ok (some v, rest) =>
            let addr := addr.set pieceIndex (addr.getD pieceIndex 0 * 0x100 + v)
            v4LoopE k addr (if k = 2 ∨ k = 0 then pieceIndex + 1 else pieceIndex) rest
          | .ok (none, _) => .error .ipv4InIPv6InvalidCodePoint
        else .error .ipv4InIPv6InvalidCodePoint

/-- step 6 with `k = 8 - pieceIndex` -/
def v6LoopE : (k : Nat) → (addr : List Nat) → (compress : Option Nat) → Str →
    Except VErr (List Nat × Nat × Option Nat)
  | k, addr, compress, [] => .ok (addr, 8 - k, compress)
  | 0, _, _, _ :: _ => .error .ipv6TooManyPieces
  | k + 1, addr, compress, c :: cs =>
    if c = c!":" then
      if compress.isSome then .error .ipv6MultipleCompression else v6LoopE k addr (some (8 - k)) cs
    else
      match v6Hex 4 0 0 (c :: cs) with
      | (_, length, 46 :: _) =>
        if length = 0 then .error .ipv4InIPv6InvalidCodePoint
        else if 8 - (k + 1) > 6 then .error .ipv4InIPv6TooManyPieces
        else (v4LoopE 4 addr (8 - (k + 1)) (c :: cs)).map fun r => (r.1, r.2, compress)
      | (value, _, []) => .ok (addr.set (8 - (k + 1)) value, 8 - k, compress)
      | (value, _, 58 :: rest) =>
        if rest = [] then .error .ipv6InvalidCodePoint
        else v6LoopE k (addr.set (8 - (k + 1)) value) compress rest
      | _ => .error .ipv6InvalidCodePoint

/-- The IPv6 parser with its validation errors, each of which is also a failure. -/
def ipv6ParseE (input : Str) : Except VErr (List Nat) :=
  let zeros := [0, 0, 0, 0, 0, 0, 0, 0]
  let after := match input with
    | 58 :: 58 :: rest => v6LoopE 7 zeros (some 1) rest
    | 58 :: _ => .error .ipv6InvalidCompression
    | _ => v6LoopE 8 zeros none input
  match after with
  | .error e => .error e
  | .ok (addr, pieceIndex, some compress) => .ok (v6Swap compress (pieceIndex - compress) 7 addr)
  | .ok (addr, pieceIndex, none) => if pieceIndex = 8 then .ok addr else .error .ipv6TooFewPieces

/-- the validation errors of the IPv6 parser -/
def ipv6Reports (input : Str) : List VErr :=
  match ipv6ParseE input with
  | .ok _ => []
  | .error e => [e]

/-! ### IPv4: https://url.spec.whatwg.org/#concept-ipv4-parser -/

/-- the validation error flag of the IPv4 number parser: a leading "0" with something behind it -/
def nonDecimal : Str → Bool
  | 48 :: _ :: _ => true
  | _ => false

/-- step 6 for the remaining parts, and step 7; `numbers` have been read -/
def ipv4PartReports (numbers : List Nat) : List Str → List VErr
  | [] => if ∃ n ∈ numbers, n > 255 then [.ipv4OutOfRangePart] else []
  | part :: parts =>
    match ipv4Number part with
    | none => [.ipv4NonNumericPart]
    | some n => (if nonDecimal part then [.ipv4NonDecimalPart] else []) ++ ipv4PartReports (numbers ++ [n]) parts

/-- the validation errors of the IPv4 parser -/
def ipv4Reports (input : Str) : List VErr :=
  (if (strictlySplit c!"." [] input).getLast? = some [] then [.ipv4EmptyPart] else []) ++
  (if (ipv4Parts input).length > 4 then [.ipv4TooManyParts] else ipv4PartReports [] (ipv4Parts input))

/-! ### Hosts -/

/-- some "%" is not followed by two ASCII hex digits -/
def badEscape : Str → Bool
  | [] => false
  | c :: cs => (c == c!"%" && !startsWithTwoHex cs) || badEscape cs

/-- the validation errors of the opaque-host parser: https://url.spec.whatwg.org/#concept-opaque-host-parser -/
def opaqueReports (input : Str) : List VErr :=
  if ∃ c ∈ input, ForbiddenHostCP c then [.hostInvalidCodePoint]
  else
    (if ∃ c ∈ input, ¬ URLCodePoint c ∧ c ≠ c!"%" then [.invalidURLUnit] else []) ++
    (if badEscape input then [.invalidURLUnit] else [])

/-- the validation errors of the host parser: https://url.spec.whatwg.org/#concept-host-parser -/
def hostReports (icu : Str → IcuOut) (input : Str) (isOpaque : Bool) : List VErr :=
  if input.head? = some c!"[" then
    if input.getLast? ≠ some c!"]" then [.ipv6Unclosed] else ipv6Reports input.tail.dropLast
  else if isOpaque then opaqueReports input
  else
    match domainToASCII icu (utf8Decode (percentDecode (utf8 input))) with
    | none => [.domainToASCII]
    | some ascii =>
      if ∃ c ∈ ascii, ForbiddenDomainCP c then [.domainInvalidCodePoint]
      else if endsInANumber ascii then ipv4Reports ascii
      else []

/-! ### Where the code differs -/

/-- how what the code records for a host (`t`) differs from what the standard reports (`r`) -/
inductive HostTally (s : Str) (isOpaque : Bool) (failed : Prop) : (r t : List VErr) → Prop
  /-- not at all, if none of the last two cases applies -/
  | same {r : List VErr} (h1 : isOpaque = true → r ≠ [.invalidURLUnit, .invalidURLUnit])
      (h2 : isOpaque = false → failed → r.getLast? ≠ some .ipv4OutOfRangePart) : HostTally s isOpaque failed r r
  /-- another error for an IPv6 address that is not parsed -/
  | ipv6 {r t : List VErr} (hs : s.head? = some c!"[") (hf : failed) (hr : r ≠ []) (ht : t ≠ []) :
      HostTally s isOpaque failed r t
  /-- one error for an opaque host that has both a code point and an escape that are not allowed -/
  | twoUnits (hm : isOpaque = true) : HostTally s isOpaque failed [.invalidURLUnit, .invalidURLUnit] [.invalidURLUnit]
  /-- one error more for an IPv4 address that is out of range -/
  | range {l : List VErr} (hm : isOpaque = false) (hf : failed) :
      HostTally s isOpaque failed (l ++ [.ipv4OutOfRangePart]) (l ++ [.ipv4OutOfRangePart, .undefined])

/-! ### The reports and the results of Spec/Host.lean belong together -/

theorem v4DigitsE_toOption (s : Str) : ∀ value, (v4DigitsE value s).toOption = v4Digits value s := by
  induction s with
  | nil => intro value; rfl
  | cons c cs ih =>
    intro value
    unfold v4DigitsE v4Digits
    split
    · cases v4Step value (c - c!"0") with
      | none => rfl
      | some v =>
        dsimp only
        split
        · rfl
        · exact ih _
    · rfl

theorem v4LoopE_toOption (k : Nat) : ∀ addr i s, (v4LoopE k addr i s).toOption = v4Loop k addr i s := by
  induction k with
  | zero =>
    intro addr i s
    unfold v4LoopE v4Loop
    split <;> rfl
  | succ k ih =>
    intro addr i s
    unfold v4LoopE v4Loop
    dsimp only
    by_cases hs : s = []
    · subst hs
      by_cases hk : k + 1 = 4
      · rw [if_pos rfl, if_pos hk]; rfl
      · rw [if_pos rfl, if_neg hk]; rfl
    · rw [if_neg hs]
      generalize (if k + 1 = 4 then some s else _ : Option Str) = s'
      cases s' with
      | none => rfl
      | some s' =>
        cases s' with
        | nil => rfl
        | cons c t =>
          dsimp only
          by_cases hd : isDigit c = true
          · rw [if_pos hd, if_pos hd, ← v4DigitsE_toOption]
            rcases v4DigitsE none (c :: t) with e | ⟨v, rest⟩
            · rfl
            · cases v with
              | none => rfl
              | some v => exact ih _ _ _
          · rw [if_neg hd, if_neg hd]; rfl

theorem v6LoopE_toOption (k : Nat) (addr : List Nat) (compress : Option Nat) (s : Str) :
    (v6LoopE k addr compress s).toOption = v6Loop k addr compress s := by
  fun_induction v6LoopE k addr compress s <;> unfold v6Loop <;> simp_all [Except.toOption]
  all_goals
    rw [if_neg (by omega), ← v4LoopE_toOption]
    rcases v4LoopE 4 _ _ _ <;> rfl

theorem ipv6ParseE_toOption (s : Str) : (ipv6ParseE s).toOption = ipv6Parse s := by
  unfold ipv6ParseE ipv6Parse
  dsimp only
  have key : ∀ (a : Except VErr (List Nat × Nat × Option Nat)) b, a.toOption = b →
      (match a with
        | .error e => .error e
        | .ok (addr, pieceIndex, some compress) => .ok (v6Swap compress (pieceIndex - compress) 7 addr)
        | .ok (addr, pieceIndex, none) => if pieceIndex = 8 then .ok addr else .error .ipv6TooFewPieces :
          Except VErr (List Nat)).toOption =
      (match b with
        | none => none
        | some (addr, pieceIndex, some compress) => some (v6Swap compress (pieceIndex - compress) 7 addr)
        | some (addr, pieceIndex, none) => if pieceIndex = 8 then some addr else none) := by
    rintro a b rfl
    rcases a with e | ⟨addr, i, _ | c⟩
    · rfl
    · by_cases h : i = 8
      · simp [h, Except.toOption]
      · simp [h, Except.toOption]
    · rfl
  apply key
  split
  · exact v6LoopE_toOption ..
  · rename_i h
    split
    · rename_i h1; injection h1 with _ h1; exact absurd h1 (h _)
    · rfl
    · rename_i h1; exact absurd rfl (h1 _)
  · rename_i h1 h2
    split
    · exact absurd rfl (h1 _)
    · exact absurd rfl (h2 _)
    · exact v6LoopE_toOption ..

/-- the IPv6 parser reports an error exactly when it fails -/
theorem ipv6Reports_nil (s : Str) : ipv6Reports s = [] ↔ ∃ a, ipv6Parse s = some a := by
  unfold ipv6Reports
  rw [← ipv6ParseE_toOption]
  cases ipv6ParseE s with
  | error e => simp [Except.toOption]
  | ok a => simp [Except.toOption]

end Urlstd.Spec
