/-
The validation errors of the URL Standard's basic URL parser (July 2023): which ones the state machine of
Spec/Machine.lean reports, in order.
https://url.spec.whatwg.org/#validation-error

Nothing here refers to the model's parser or to its logs; `VErr` is used as a list of names.
-/
import Verif.Spec.HostParser

namespace Urlstd.Spec

/-- https://infra.spec.whatwg.org/#noncharacter: U+FDD0 to U+FDEF, and the last two code points of every plane -/
def Noncharacter (c : Nat) : Prop := (0xFDD0 ≤ c ∧ c ≤ 0xFDEF) ∨ ∃ plane, plane ≤ 16 ∧ (c = plane * 0x10000 + 0xFFFE ∨ c = plane * 0x10000 + 0xFFFF)

instance (c : Nat) : Decidable (Noncharacter c) := by unfold Noncharacter; infer_instance

/-- https://url.spec.whatwg.org/#url-code-points -/
def URLCodePoint (c : Nat) : Prop :=
  Letter c ∨ Digit c ∨ c ∈ u!"!$&'()*+,-./:;=?@_~" ∨ (0xA0 ≤ c ∧ c ≤ 0x10FFFD ∧ ¬ Surrogate c ∧ ¬ Noncharacter c)

instance (c : Nat) : Decidable (URLCodePoint c) := by unfold URLCodePoint; infer_instance

/-- the text starts with two ASCII hex digits -/
def startsWithTwoHex : Str → Bool
  | a :: b :: _ => isHex a && isHex b
  | _ => false

/-- The two checks of the path, opaque path, query and fragment states: "If c is not a URL code point and not U+0025 (%),
invalid-URL-unit validation error. If c is U+0025 (%) and remaining does not start with two ASCII hex digits,
invalid-URL-unit validation error." -/
def unitErrors (c : Option Nat) (remaining : Str) : List VErr :=
  match c with
  | none => []
  | some c =>
    (if ¬ URLCodePoint c ∧ c ≠ c!"%" then [.invalidURLUnit] else []) ++
    (if c = c!"%" ∧ startsWithTwoHex remaining = false then [.invalidURLUnit] else [])

/-- The validation errors of one run of the state `k.state`; `report` is what the host parser reports for a text. -/
def stateErrors (K : Ctx) (report : Str → Bool → List VErr) (c : Option Nat) (remaining : Str) (k : Cfg) : List VErr :=
  let u := k.url
  let special := isSpecial u.scheme
  let ov := K.override.isSome
  let here : Str := match c with | some x => x :: remaining | none => []
  match k.state with
  | .schemeStart | .pathOrAuthority => []
  | .scheme =>
    if c = some c!":" ∧ ov = false ∧ k.buffer = u!"file" ∧ remaining.take 2 ≠ u!"//" then
      [.specialSchemeMissingFollowingSolidus]
    else []
  | .noScheme =>
    match K.base with
    | none => [.missingSchemeNonRelativeURL]
    | some b => if isOpaque b && c != some c!"#" then [.missingSchemeNonRelativeURL] else []
  | .specialRelativeOrAuthority | .specialAuthoritySlashes =>
    if c = some c!"/" ∧ remaining.head? = some c!"/" then [] else [.specialSchemeMissingFollowingSolidus]
  | .specialAuthorityIgnoreSlashes =>
    if c = some c!"/" ∨ c = some c!"\\" then [.specialSchemeMissingFollowingSolidus] else []
  | .relative =>
    match K.base with
    | none => []
    | some b => if isSpecial b.scheme && c == some c!"\\" then [.invalidReverseSolidus] else []
  | .relativeSlash | .pathStart => if special && c == some c!"\\" then [.invalidReverseSolidus] else []
  | .authority =>
    if c = some c!"@" then [.invalidCredentials]
    -- host-missing since a later version of the standard
    else if endsAuthority u c && k.atSign && k.buffer == [] then [.invalidCredentials]
    else []
  | .host | .hostname =>
    if ov && u.scheme == u!"file" then []
    else if c == some c!":" && !k.inside then
      if k.buffer = [] then [.hostMissing]
      else if K.override = some .hostname then []
      else report k.buffer (!special)
    else if endsAuthority u c then
      if special && k.buffer == [] then [.hostMissing]
      else if ov && k.buffer == [] && (hasCredentials u || u.port.isSome) then []
      else report k.buffer (!special)
    else []
  | .port =>
    match c with
    | some x =>
      if Digit x then [] else if endsAuthority u c || ov then outOfRange k.buffer else [.portInvalid]
    | none => outOfRange k.buffer
  | .file =>
    if c = some c!"/" then []
    else if c = some c!"\\" then [.invalidReverseSolidus]
    else
      match K.base with
      | some b =>
        if b.scheme = u!"file" ∧ c ≠ none ∧ c ≠ some c!"?" ∧ c ≠ some c!"#" ∧ startsWithDrive here = true then
          [.fileInvalidWindowsDriveLetter]
        else []
      | none => []
  | .fileSlash => if c = some c!"\\" then [.invalidReverseSolidus] else []
  | .fileHost =>
    if c = none ∨ c = some c!"/" ∨ c = some c!"\\" ∨ c = some c!"?" ∨ c = some c!"#" then
      if !ov && isDrive k.buffer then [.fileInvalidWindowsDriveLetterHost]
      else if k.buffer = [] then []
      else report k.buffer (!special)
    else []
  | .path =>
    if c = some c!"/" then []
    else if special && c == some c!"\\" then [.invalidReverseSolidus]
    else if !ov && (c == some c!"?" || c == some c!"#") then []
    else unitErrors c remaining
  | .opaquePath => if c = some c!"?" ∨ c = some c!"#" then [] else unitErrors c remaining
  | .query => if !ov && c == some c!"#" then [] else unitErrors c remaining
  | .fragment => unitErrors c remaining
where
  /-- port state, step 2.1.2 -/
  outOfRange (buffer : Str) : List VErr := if decimal buffer > 2 ^ 16 - 1 then [.portOutOfRange] else []

/-- The validation errors from a configuration of the state machine to its end. -/
inductive Reports (K : Ctx) (report : Str → Bool → List VErr) (input : Str) : Cfg → List VErr → Prop
  | failure {k : Cfg} {u : Rec} (h : runState K (codePoint input k.pointer) (remaining input k.pointer) k = .failure u) :
      Reports K report input k (stateErrors K report (codePoint input k.pointer) (remaining input k.pointer) k)
  | ret {k : Cfg} {u : Rec} (h : runState K (codePoint input k.pointer) (remaining input k.pointer) k = .ret u) :
      Reports K report input k (stateErrors K report (codePoint input k.pointer) (remaining input k.pointer) k)
  | eof {k k' : Cfg} (h : runState K (codePoint input k.pointer) (remaining input k.pointer) k = .go k')
      (he : k'.pointer = input.length) :
      Reports K report input k (stateErrors K report (codePoint input k.pointer) (remaining input k.pointer) k)
  | next {k k' : Cfg} {l : List VErr}
      (h : runState K (codePoint input k.pointer) (remaining input k.pointer) k = .go k')
      (he : k'.pointer ≠ input.length) (hn : Reports K report input { k' with pointer := k'.pointer + 1 } l) :
      Reports K report input k (stateErrors K report (codePoint input k.pointer) (remaining input k.pointer) k ++ l)

/-- the first two steps: "If input contains any leading or trailing C0 control or space, invalid-URL-unit validation
error", and after their removal "If input contains any ASCII tab or newline, invalid-URL-unit validation error" -/
def startErrors (input : Str) : List VErr :=
  (if (∃ c ∈ input.head?, C0OrSpace c) ∨ (∃ c ∈ input.getLast?, C0OrSpace c) then [.invalidURLUnit] else []) ++
  (if ∃ c ∈ stripC0 input, TabOrNewline c then [.invalidURLUnit] else [])

/-- The validation errors of the basic URL parser without url and state override. -/
def ParseReports (hostParse : Str → Bool → Option Host) (report : Str → Bool → List VErr) (input : Str)
    (base : Option Rec) (e : Encoding) (l : List VErr) : Prop :=
  ∃ l', l = startErrors input ++ l' ∧
    Reports ⟨base, encoder e, none, hostParse⟩ report (dropTabs (stripC0 input)) (.start .schemeStart {}) l'

/-! ### Where the code reports one error more

The file host state leaves a Windows drive letter such as "C|" in the buffer for the path state, which therefore does
not look at its code points. The code goes back and lets its path state read them again. -/

/-- "file://", or "//" with a "file" URL as base, either with "\\" for a "/", and then a letter, "|", and the end of a host -/
def PipeDrive (base : Option Rec) (input : Str) : Prop :=
  ∃ (x : Str) (a b c : Nat) (y : Str), input = x ++ a :: b :: c :: c!"|" :: y ∧
    ((x = [] ∧ ∃ r, base = some r ∧ r.scheme = u!"file" ∧ isOpaque r = false) ∨ toLower x = u!"file:") ∧
    (a = c!"/" ∨ a = c!"\\") ∧ (b = c!"/" ∨ b = c!"\\") ∧ Letter c ∧
    (y = [] ∨ ∃ d r, y = d :: r ∧ d ∈ u!"/\\?#")

/-- `l'` has an invalid-URL-unit more than `l`, directly behind a file-invalid-Windows-drive-letter-host -/
def ExtraUnit (l l' : List VErr) : Prop :=
  ∃ x y, l = x ++ .fileInvalidWindowsDriveLetterHost :: y ∧
    l' = x ++ .fileInvalidWindowsDriveLetterHost :: .invalidURLUnit :: y

/-! ### Facts about the reports themselves -/

/-- the reports are determined by the configuration -/
theorem Reports.unique {K : Ctx} {report : Str → Bool → List VErr} {input : Str} {k : Cfg} {l l' : List VErr}
    (h : Reports K report input k l) (h' : Reports K report input k l') : l = l' := by
  induction h generalizing l' with
  | failure h =>
    cases h' with
    | next g _ _ => rw [h] at g; cases g
    | _ => rfl
  | ret h =>
    cases h' with
    | next g _ _ => rw [h] at g; cases g
    | _ => rfl
  | eof h he =>
    cases h' with
    | next g hn _ => rw [h] at g; cases g; exact absurd he hn
    | _ => rfl
  | next h he hn ih =>
    cases h' with
    | failure g => rw [h] at g; cases g
    | ret g => rw [h] at g; cases g
    | eof g hn' => rw [h] at g; cases g; exact absurd hn' he
    | next g _ hn' => rw [h] at g; cases g; rw [ih hn']

/-- the machine has a list of reports exactly when it ends -/
theorem Reports.halts {K : Ctx} {report : Str → Bool → List VErr} {input : Str} {k : Cfg} :
    (∃ l, Reports K report input k l) ↔ ∃ o, Halts K input k o := by
  constructor
  · rintro ⟨l, h⟩
    induction h with
    | failure h => exact ⟨_, .failure h⟩
    | ret h => exact ⟨_, .ret h⟩
    | eof h he => exact ⟨_, .eof h he⟩
    | next h he hn ih => obtain ⟨o, ih⟩ := ih; exact ⟨o, .next h he ih⟩
  · rintro ⟨o, h⟩
    induction h with
    | failure h => exact ⟨_, .failure h⟩
    | ret h => exact ⟨_, .ret h⟩
    | eof h he => exact ⟨_, .eof h he⟩
    | next h he hn ih => obtain ⟨l, ih⟩ := ih; exact ⟨_, .next h he ih⟩

/-- the reports of the machine as a program with a bound on the number of runs -/
def execReports (K : Ctx) (report : Str → Bool → List VErr) (input : Str) : Nat → Cfg → Option (List VErr)
  | 0, _ => none
  | n + 1, k =>
    let l := stateErrors K report (codePoint input k.pointer) (remaining input k.pointer) k
    match runState K (codePoint input k.pointer) (remaining input k.pointer) k with
    | .failure _ => some l
    | .ret _ => some l
    | .go k' =>
      if k'.pointer = input.length then some l
      else (execReports K report input n { k' with pointer := k'.pointer + 1 }).map (l ++ ·)

theorem execReports_reports {K : Ctx} {report : Str → Bool → List VErr} {input : Str} {n : Nat} {k : Cfg} {l : List VErr}
    (h : execReports K report input n k = some l) : Reports K report input k l := by
  induction n generalizing k l with
  | zero => cases h
  | succ n ih =>
    unfold execReports at h
    dsimp only at h
    rcases hr : runState K (codePoint input k.pointer) (remaining input k.pointer) k with k' | u | u
    · rw [hr] at h
      dsimp only at h
      split at h
      · cases h; exact .eof hr ‹_›
      · rw [Option.map_eq_some_iff] at h
        obtain ⟨l2, h2, rfl⟩ := h
        exact .next hr ‹_› (ih h2)
    · rw [hr] at h; cases h; exact .failure hr
    · rw [hr] at h; cases h; exact .ret hr

end Urlstd.Spec
