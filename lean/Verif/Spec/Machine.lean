/-
The URL Standard's basic URL parser (July 2023), written from the standard's text as the state machine it describes: a
pointer into the input, a buffer, three flags and the URL record, one code point per step.
https://url.spec.whatwg.org/#concept-basic-url-parser

Nothing here refers to the model's parser; `Rec`, `Path`, `Host` and `Encoding` are used as data. The host parser is a
parameter (`Spec.hostParser` in Spec/HostParser.lean is the standard's). Validation errors are in Spec/Reports.lean.
-/
import Verif.Spec.Reference

namespace Urlstd.Spec

/-! ### Percent-encode sets -/

/-- https://url.spec.whatwg.org/#c0-control-percent-encode-set -/
def c0Set (c : Nat) : Bool := c ≤ 0x1F || 0x7E < c
/-- https://url.spec.whatwg.org/#fragment-percent-encode-set -/
def fragmentSet (c : Nat) : Bool := c0Set c || [0x20, 0x22, 0x3C, 0x3E, 0x60].contains c
/-- https://url.spec.whatwg.org/#query-percent-encode-set -/
def querySet (c : Nat) : Bool := c0Set c || [0x20, 0x22, 0x23, 0x3C, 0x3E].contains c
/-- https://url.spec.whatwg.org/#special-query-percent-encode-set -/
def specialQuerySet (c : Nat) : Bool := querySet c || c == 0x27
/-- https://url.spec.whatwg.org/#path-percent-encode-set -/
def pathSet (c : Nat) : Bool := querySet c || [0x3F, 0x60, 0x7B, 0x7D].contains c
/-- https://url.spec.whatwg.org/#userinfo-percent-encode-set -/
def userinfoSet (c : Nat) : Bool :=
  pathSet c || [0x2F, 0x3A, 0x3B, 0x3D, 0x40].contains c || (0x5B ≤ c && c ≤ 0x5E) || c == 0x7C

/-- "UTF-8 percent-encode" a code point using a set -/
def encodeCP (set : Nat → Bool) (c : Nat) : Str := percentEncode (fun b => !set b) false (utf8CP c)

/-- the encoder of an output encoding: the bytes of a code point, or `none` if it has none -/
def encoder : Encoding → Nat → Option Bytes
  | .utf8 => fun c => some (utf8CP c)
  | .other f => f

/-- https://url.spec.whatwg.org/#string-percent-encode-after-encoding -/
def encodeAfter (enc : Nat → Option Bytes) (set : Nat → Bool) (s : Str) : Str :=
  s.flatMap fun c => match enc c with
    | some bs => percentEncode (fun b => !set b) false bs
    | none => u!"%26%23" ++ decText c ++ u!"%3B"

/-! ### Windows drive letters, dot segments -/

/-- https://url.spec.whatwg.org/#windows-drive-letter -/
def isDrive : Str → Bool
  | [a, b] => decide (Letter a) && (b == c!":" || b == c!"|")
  | _ => false

/-- https://url.spec.whatwg.org/#normalized-windows-drive-letter -/
def isNormDrive : Str → Bool
  | [a, b] => decide (Letter a) && b == c!":"
  | _ => false

/-- https://url.spec.whatwg.org/#start-with-a-windows-drive-letter -/
def startsWithDrive (s : Str) : Bool :=
  decide (2 ≤ s.length) && isDrive (s.take 2) && (s.length == 2 || (u!"/\\?#").contains (s.getD 2 0))

/-- https://url.spec.whatwg.org/#single-dot-path-segment -/
def singleDot (s : Str) : Bool := [u!".", u!"%2e"].contains (toLower s)

/-- https://url.spec.whatwg.org/#double-dot-path-segment -/
def doubleDot (s : Str) : Bool := [u!"..", u!".%2e", u!"%2e.", u!"%2e%2e"].contains (toLower s)

/-! ### URL records -/

/-- the scheme is special -/
def isSpecial (scheme : Str) : Bool := specialSchemes.any fun p => p.1 == scheme

/-- `port` is the default port of `scheme` -/
def isDefault (scheme : Str) (port : Nat) : Bool := specialSchemes.contains (scheme, some port)

/-- https://url.spec.whatwg.org/#url-opaque-path -/
def isOpaque (u : Rec) : Bool := match u.path with | .opaque _ => true | .list _ => false

/-- https://url.spec.whatwg.org/#include-credentials -/
def hasCredentials (u : Rec) : Bool := u.username != [] || u.password != []

/-- https://url.spec.whatwg.org/#shorten-a-urls-path (whose path is not opaque) -/
def shorten (u : Rec) : Rec :=
  match u.path with
  | .opaque _ => u
  | .list p =>
    if u.scheme = u!"file" ∧ p.length = 1 ∧ isNormDrive (p.headD []) = true then u
    else { u with path := .list p.dropLast }

/-- append to a path that is not opaque -/
def pushSegment (u : Rec) (s : Str) : Rec :=
  match u.path with
  | .opaque _ => u
  | .list p => { u with path := .list (p ++ [s]) }

/-- append to an opaque path -/
def pushOpaque (u : Rec) (s : Str) : Rec :=
  match u.path with
  | .opaque p => { u with path := .opaque (p ++ s) }
  | .list _ => u

/-! ### The state machine -/

/-- the states -/
inductive State where
  | schemeStart | scheme | noScheme | specialRelativeOrAuthority | pathOrAuthority | relative | relativeSlash
  | specialAuthoritySlashes | specialAuthorityIgnoreSlashes | authority | host | hostname | port | file | fileSlash
  | fileHost | pathStart | path | opaquePath | query | fragment
  deriving DecidableEq, Repr

/-- state, pointer, buffer, atSignSeen, insideBrackets, passwordTokenSeen, url -/
structure Cfg where
  state : State
  pointer : Int
  buffer : Str
  atSign : Bool
  inside : Bool
  pwToken : Bool
  url : Rec

/-- what does not change during a parse: base, encoder, state override, host parser -/
structure Ctx where
  base : Option Rec
  enc : Nat → Option Bytes
  override : Option State
  hostParse : Str → Bool → Option Host

/-- one run of a state: go on, return failure, or return (terminate the algorithm) -/
inductive Next where
  | go (k : Cfg)
  | failure (u : Rec)
  | ret (u : Rec)

/-- the loop over the buffer in the authority state: passwordTokenSeen and url -/
def credentials : Str → Bool → Rec → Bool × Rec
  | [], pw, u => (pw, u)
  | c :: cs, pw, u =>
    if c = c!":" ∧ pw = false then credentials cs true u
    else if pw then credentials cs pw { u with password := u.password ++ encodeCP userinfoSet c }
    else credentials cs pw { u with username := u.username ++ encodeCP userinfoSet c }

/-- value of a string of ASCII digits -/
def decimal (s : Str) : Nat := s.foldl (fun n c => 10 * n + (c - c!"0")) 0

/-- EOF, "/", "?", "#", or "\" in a special URL -/
def endsAuthority (u : Rec) (c : Option Nat) : Bool :=
  c == none || c == some c!"/" || c == some c!"?" || c == some c!"#" || (isSpecial u.scheme && c == some c!"\\")

/-- One run of the state `k.state`; `c` is the code point at the pointer (`none` is EOF), `remaining` is what
follows it. -/
def runState (K : Ctx) (c : Option Nat) (remaining : Str) (k : Cfg) : Next :=
  let u := k.url
  let special := isSpecial u.scheme
  let ov := K.override.isSome
  -- the substring from pointer
  let here : Str := match c with | some x => x :: remaining | none => []
  match k.state with
  | .schemeStart =>
    match c with
    | some x =>
      if Letter x then .go { k with buffer := k.buffer ++ toLower [x], state := .scheme }
      else if !ov then .go { k with state := .noScheme, pointer := k.pointer - 1 }
      else .failure u
    | none => if !ov then .go { k with state := .noScheme, pointer := k.pointer - 1 } else .failure u
  | .scheme =>
    let other : Next := if !ov then .go { k with buffer := [], state := .noScheme, pointer := -1 } else .failure u
    match c with
    | some x =>
      if Letter x ∨ Digit x ∨ x = c!"+" ∨ x = c!"-" ∨ x = c!"." then .go { k with buffer := k.buffer ++ toLower [x] }
      else if x = c!":" then
        if ov then
          if special && !isSpecial k.buffer then .ret u
          else if !special && isSpecial k.buffer then .ret u
          else if (hasCredentials u || u.port.isSome) && k.buffer == u!"file" then .ret u
          else if u.scheme == u!"file" && u.host == some (.str []) then .ret u
          else
            let u := { u with scheme := k.buffer }
            .ret (match u.port with
              | some p => if isDefault u.scheme p then { u with port := none } else u
              | none => u)
        else
          let u := { u with scheme := k.buffer }
          let k := { k with url := u, buffer := [] }
          if u.scheme = u!"file" then .go { k with state := .file }
          else if isSpecial u.scheme then
            match K.base with
            | some b =>
              if b.scheme = u.scheme then .go { k with state := .specialRelativeOrAuthority }
              else .go { k with state := .specialAuthoritySlashes }
            | none => .go { k with state := .specialAuthoritySlashes }
          else if remaining.head? = some c!"/" then .go { k with state := .pathOrAuthority, pointer := k.pointer + 1 }
          else .go { k with url := { u with path := .opaque [] }, state := .opaquePath }
      else other
    | none => other
  | .noScheme =>
    match K.base with
    | none => .failure u
    | some b =>
      if isOpaque b && c != some c!"#" then .failure u
      else if isOpaque b then
        .go { k with url := { u with scheme := b.scheme, path := b.path, query := b.query, fragment := some [] }
                     state := .fragment }
      else if b.scheme ≠ u!"file" then .go { k with state := .relative, pointer := k.pointer - 1 }
      else .go { k with state := .file, pointer := k.pointer - 1 }
  | .specialRelativeOrAuthority =>
    if c = some c!"/" ∧ remaining.head? = some c!"/" then
      .go { k with state := .specialAuthorityIgnoreSlashes, pointer := k.pointer + 1 }
    else .go { k with state := .relative, pointer := k.pointer - 1 }
  | .pathOrAuthority =>
    if c = some c!"/" then .go { k with state := .authority }
    else .go { k with state := .path, pointer := k.pointer - 1 }
  | .relative =>
    match K.base with
    | none => .failure u
    | some b =>
      let u := { u with scheme := b.scheme }
      let copied := { u with
        username := b.username, password := b.password, host := b.host, port := b.port, path := b.path, query := b.query }
      match c with
      | some x =>
        if x = c!"/" then .go { k with url := u, state := .relativeSlash }
        else if isSpecial u.scheme && x == c!"\\" then .go { k with url := u, state := .relativeSlash }
        else if x = c!"?" then .go { k with url := { copied with query := some [] }, state := .query }
        else if x = c!"#" then .go { k with url := { copied with fragment := some [] }, state := .fragment }
        else .go { k with url := shorten { copied with query := none }, state := .path, pointer := k.pointer - 1 }
      | none => .go { k with url := copied }
  | .relativeSlash =>
    if special && (c == some c!"/" || c == some c!"\\") then .go { k with state := .specialAuthorityIgnoreSlashes }
    else if c = some c!"/" then .go { k with state := .authority }
    else
      match K.base with
      | none => .failure u
      | some b =>
        .go { k with url := { u with username := b.username, password := b.password, host := b.host, port := b.port }
                     state := .path, pointer := k.pointer - 1 }
  | .specialAuthoritySlashes =>
    if c = some c!"/" ∧ remaining.head? = some c!"/" then
      .go { k with state := .specialAuthorityIgnoreSlashes, pointer := k.pointer + 1 }
    else .go { k with state := .specialAuthorityIgnoreSlashes, pointer := k.pointer - 1 }
  | .specialAuthorityIgnoreSlashes =>
    if c = some c!"/" ∨ c = some c!"\\" then .go k
    else .go { k with state := .authority, pointer := k.pointer - 1 }
  | .authority =>
    if c = some c!"@" then
      let buffer := if k.atSign then u!"%40" ++ k.buffer else k.buffer
      let r := credentials buffer k.pwToken u
      .go { k with atSign := true, buffer := [], pwToken := r.1, url := r.2 }
    else if endsAuthority u c then
      if k.atSign && k.buffer == [] then .failure u
      else .go { k with pointer := k.pointer - (k.buffer.length + 1), buffer := [], state := .host }
    else .go { k with buffer := k.buffer ++ c.toList }
  | .host | .hostname =>
    if ov && u.scheme == u!"file" then .go { k with pointer := k.pointer - 1, state := .fileHost }
    else if c == some c!":" && !k.inside then
      if k.buffer = [] then .failure u
      else if K.override = some .hostname then .ret u
      else
        match K.hostParse k.buffer (!special) with
        | none => .failure u
        | some h => .go { k with url := { u with host := some h }, buffer := [], state := .port }
    else if endsAuthority u c then
      if special && k.buffer == [] then .failure u
      else if ov && k.buffer == [] && (hasCredentials u || u.port.isSome) then .ret u
      else
        match K.hostParse k.buffer (!special) with
        | none => .failure u
        | some h =>
          let u := { u with host := some h }
          if ov then .ret u else .go { k with url := u, buffer := [], state := .pathStart, pointer := k.pointer - 1 }
    else
      .go { k with
        inside := if c = some c!"[" then true else if c = some c!"]" then false else k.inside
        buffer := k.buffer ++ c.toList }
  | .port =>
    match c with
    | some x =>
      if Digit x then .go { k with buffer := k.buffer ++ [x] }
      else if endsAuthority u c || ov then portDone k ov else .failure u
    | none => portDone k ov
  | .file =>
    let u := { u with scheme := u!"file", host := some (.str []) }
    if c = some c!"/" ∨ c = some c!"\\" then .go { k with url := u, state := .fileSlash }
    else
      match K.base with
      | some b =>
        if b.scheme = u!"file" then
          let u := { u with host := b.host, path := b.path, query := b.query }
          match c with
          | some x =>
            if x = c!"?" then .go { k with url := { u with query := some [] }, state := .query }
            else if x = c!"#" then .go { k with url := { u with fragment := some [] }, state := .fragment }
            else
              let u := { u with query := none }
              .go { k with
                url := if startsWithDrive here then { u with path := .list [] } else shorten u
                state := .path, pointer := k.pointer - 1 }
          | none => .go { k with url := u }
        else .go { k with url := u, state := .path, pointer := k.pointer - 1 }
      | none => .go { k with url := u, state := .path, pointer := k.pointer - 1 }
  | .fileSlash =>
    if c = some c!"/" ∨ c = some c!"\\" then .go { k with state := .fileHost }
    else
      match K.base with
      | some b =>
        if b.scheme = u!"file" then
          let u := { u with host := b.host }
          let first : Option Str := match b.path with | .list (p :: _) => some p | _ => none
          let u := match first with
            | some p => if !startsWithDrive here && isNormDrive p then pushSegment u p else u
            | none => u
          .go { k with url := u, state := .path, pointer := k.pointer - 1 }
        else .go { k with state := .path, pointer := k.pointer - 1 }
      | none => .go { k with state := .path, pointer := k.pointer - 1 }
  | .fileHost =>
    if c = none ∨ c = some c!"/" ∨ c = some c!"\\" ∨ c = some c!"?" ∨ c = some c!"#" then
      let k := { k with pointer := k.pointer - 1 }
      -- the buffer is kept for the path state
      if !ov && isDrive k.buffer then .go { k with state := .path }
      else if k.buffer = [] then
        let u := { u with host := some (.str []) }
        if ov then .ret u else .go { k with url := u, state := .pathStart }
      else
        match K.hostParse k.buffer (!special) with
        | none => .failure u
        | some h =>
          let u := { u with host := some (if h = .str u!"localhost" then .str [] else h) }
          if ov then .ret u else .go { k with url := u, buffer := [], state := .pathStart }
    else .go { k with buffer := k.buffer ++ c.toList }
  | .pathStart =>
    if special then
      if c = some c!"/" ∨ c = some c!"\\" then .go { k with state := .path }
      else .go { k with state := .path, pointer := k.pointer - 1 }
    else if !ov && c == some c!"?" then .go { k with url := { u with query := some [] }, state := .query }
    else if !ov && c == some c!"#" then .go { k with url := { u with fragment := some [] }, state := .fragment }
    else if c ≠ none then
      if c = some c!"/" then .go { k with state := .path }
      else .go { k with state := .path, pointer := k.pointer - 1 }
    else if ov && u.host == none then .go { k with url := pushSegment u [] }
    else .go k
  | .path =>
    let slash := c == some c!"/" || (special && c == some c!"\\")
    if c == none || slash || (!ov && (c == some c!"?" || c == some c!"#")) then
      let u :=
        if doubleDot k.buffer then (if slash then shorten u else pushSegment (shorten u) [])
        else if singleDot k.buffer then (if slash then u else pushSegment u [])
        else
          let buffer :=
            if u.scheme = u!"file" ∧ u.path = .list [] ∧ isDrive k.buffer = true then k.buffer.take 1 ++ u!":"
            else k.buffer
          pushSegment u buffer
      let k := { k with buffer := [], url := u }
      if c = some c!"?" then .go { k with url := { u with query := some [] }, state := .query }
      else if c = some c!"#" then .go { k with url := { u with fragment := some [] }, state := .fragment }
      else .go k
    else .go { k with buffer := k.buffer ++ (c.toList.flatMap (encodeCP pathSet)) }
  | .opaquePath =>
    if c = some c!"?" then .go { k with url := { u with query := some [] }, state := .query }
    else if c = some c!"#" then .go { k with url := { u with fragment := some [] }, state := .fragment }
    else .go { k with url := pushOpaque u (c.toList.flatMap (encodeCP c0Set)) }
  | .query =>
    let enc := if !special || u.scheme == u!"ws" || u.scheme == u!"wss" then encoder .utf8 else K.enc
    if (!ov && c == some c!"#") || c == none then
      let set := if special then specialQuerySet else querySet
      let u := { u with query := u.query.map (· ++ encodeAfter enc set k.buffer) }
      let k := { k with buffer := [], url := u }
      if c = some c!"#" then .go { k with url := { u with fragment := some [] }, state := .fragment }
      else .go k
    else .go { k with buffer := k.buffer ++ c.toList }
  | .fragment =>
    .go { k with url := { u with fragment := u.fragment.map (· ++ c.toList.flatMap (encodeCP fragmentSet)) } }
where
  /-- port state, step 2 -/
  portDone (k : Cfg) (ov : Bool) : Next :=
    let u := k.url
    if k.buffer = [] then
      if ov then .ret u else .go { k with state := .pathStart, pointer := k.pointer - 1 }
    else if decimal k.buffer > 2 ^ 16 - 1 then .failure u
    else
      let u := { u with port := if isDefault u.scheme (decimal k.buffer) then none else some (decimal k.buffer) }
      if ov then .ret u else .go { k with url := u, buffer := [], state := .pathStart, pointer := k.pointer - 1 }

/-- the result of the basic URL parser: failure, or success; and the record as it is then -/
inductive Outcome where
  | failure (u : Rec)
  | ok (u : Rec)
  deriving DecidableEq, Repr

/-- the code point at the pointer -/
def codePoint (input : Str) (pointer : Int) : Option Nat := if pointer < 0 then none else input[pointer.toNat]?

/-- the code points after the one at the pointer -/
def remaining (input : Str) (pointer : Int) : Str := input.drop (pointer + 1).toNat

/-- "Keep running the state machine by switching on state. If after a run pointer points to the EOF code point, go
to the next step. Otherwise, increase pointer by 1 and continue with the state machine." -/
inductive Halts (K : Ctx) (input : Str) : Cfg → Outcome → Prop
  | failure {k : Cfg} {u : Rec} (h : runState K (codePoint input k.pointer) (remaining input k.pointer) k = .failure u) :
      Halts K input k (.failure u)
  | ret {k : Cfg} {u : Rec} (h : runState K (codePoint input k.pointer) (remaining input k.pointer) k = .ret u) :
      Halts K input k (.ok u)
  | eof {k k' : Cfg} (h : runState K (codePoint input k.pointer) (remaining input k.pointer) k = .go k')
      (he : k'.pointer = input.length) : Halts K input k (.ok k'.url)
  | next {k k' : Cfg} {o : Outcome}
      (h : runState K (codePoint input k.pointer) (remaining input k.pointer) k = .go k')
      (he : k'.pointer ≠ input.length) (hn : Halts K input { k' with pointer := k'.pointer + 1 } o) : Halts K input k o

/-- the configuration before the first run -/
def Cfg.start (st : State) (u : Rec) : Cfg := ⟨st, 0, [], false, false, false, u⟩

/-- removal of leading and trailing C0 controls and spaces -/
def stripC0 (s : Str) : Str :=
  ((s.dropWhile fun c => decide (C0OrSpace c)).reverse.dropWhile fun c => decide (C0OrSpace c)).reverse

/-- removal of ASCII tabs and newlines -/
def dropTabs (s : Str) : Str := s.filter fun c => ¬ TabOrNewline c

/-- The basic URL parser without url and state override. -/
def Parses (hostParse : Str → Bool → Option Host) (input : Str) (base : Option Rec) (e : Encoding) (o : Outcome) : Prop :=
  Halts ⟨base, encoder e, none, hostParse⟩ (dropTabs (stripC0 input)) (.start .schemeStart {}) o

/-- The basic URL parser with url and state override. -/
def Modifies (hostParse : Str → Bool → Option Host) (input : Str) (u : Rec) (override : State) (o : Outcome) : Prop :=
  Halts ⟨none, encoder .utf8, some override, hostParse⟩ (dropTabs input) (.start override u) o

/-! ### Facts about the machine itself -/

/-- the machine is deterministic -/
theorem Halts.unique {K : Ctx} {input : Str} {k : Cfg} {o o' : Outcome} (h : Halts K input k o) (h' : Halts K input k o') :
    o = o' := by
  induction h with
  | failure h =>
    cases h' with
    | failure g => rw [h] at g; cases g; rfl
    | ret g => rw [h] at g; cases g
    | eof g _ => rw [h] at g; cases g
    | next g _ _ => rw [h] at g; cases g
  | ret h =>
    cases h' with
    | failure g => rw [h] at g; cases g
    | ret g => rw [h] at g; cases g; rfl
    | eof g _ => rw [h] at g; cases g
    | next g _ _ => rw [h] at g; cases g
  | eof h he =>
    cases h' with
    | failure g => rw [h] at g; cases g
    | ret g => rw [h] at g; cases g
    | eof g _ => rw [h] at g; cases g; rfl
    | next g hn _ => rw [h] at g; cases g; exact absurd he hn
  | next h he hn ih =>
    cases h' with
    | failure g => rw [h] at g; cases g
    | ret g => rw [h] at g; cases g
    | eof g hn' => rw [h] at g; cases g; exact absurd hn' he
    | next g _ hn' => rw [h] at g; cases g; exact ih hn'

/-- the machine as a program with a bound on the number of runs -/
def exec (K : Ctx) (input : Str) : Nat → Cfg → Option Outcome
  | 0, _ => none
  | n + 1, k =>
    match runState K (codePoint input k.pointer) (remaining input k.pointer) k with
    | .failure u => some (.failure u)
    | .ret u => some (.ok u)
    | .go k' => if k'.pointer = input.length then some (.ok k'.url) else exec K input n { k' with pointer := k'.pointer + 1 }

theorem exec_halts {K : Ctx} {input : Str} {n : Nat} {k : Cfg} {o : Outcome} (h : exec K input n k = some o) :
    Halts K input k o := by
  induction n generalizing k with
  | zero => cases h
  | succ n ih =>
    unfold exec at h
    cases hr : runState K (codePoint input k.pointer) (remaining input k.pointer) k with
    | failure u => rw [hr] at h; cases h; exact .failure hr
    | ret u => rw [hr] at h; cases h; exact .ret hr
    | go k' =>
      rw [hr] at h
      dsimp only at h
      split at h
      · cases h; exact .eof hr (by assumption)
      · exact .next hr (by assumption) (ih h)

end Urlstd.Spec

namespace Urlstd

/-- No character is encoded to bytes that start with "&#". -/
def NoRef : Encoding → Prop
  | .utf8 => True
  | .other f => ∀ c bs, f c = some bs → bs.take 2 ≠ u!"&#"

/-- the input is empty, or only the scheme "file" and a colon -/
def BareFile (s : Str) : Prop :=
  Spec.dropTabs (Spec.stripC0 s) = [] ∨ Spec.toLower (Spec.dropTabs (Spec.stripC0 s)) = u!"file:"

end Urlstd
