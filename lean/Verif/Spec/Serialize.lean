/-
The serializers and the attribute getters of the URL Standard (July 2023), step by step.
-/
import Verif.Spec.Machine

namespace Urlstd.Spec

/-! ### Hosts: https://url.spec.whatwg.org/#host-serializing -/

/-- "For each i in the range 1 to 4, inclusive: prepend n % 256, serialized, to output; if i is not 4, then prepend
U+002E (.) to output; set n to floor(n / 256)." -/
def ipv4Rounds (n : Nat) (output : Str) : List Nat → Str
  | [] => output
  | i :: is =>
    let output := decText (n % 256) ++ output
    let output := if i ≠ 4 then c!"." :: output else output
    ipv4Rounds (n / 256) output is

/-- https://url.spec.whatwg.org/#concept-ipv4-serializer -/
def ipv4Serializer (address : Nat) : Str := ipv4Rounds address [] [1, 2, 3, 4]

/-- the number of pieces from the start on that are 0 -/
def zerosAtStart (address : List Nat) : Nat := (address.takeWhile (· = 0)).length

/-- "Let compress be an index to the first IPv6 piece in the first longest sequences of address's IPv6 pieces that are
0. If there is no sequence of address's IPv6 pieces that are 0 that is longer than 1, then set compress to null." -/
def compressIndex (address : List Nat) : Option Nat :=
  let runs := (List.range address.length).map fun i => zerosAtStart (address.drop i)
  let longest := runs.foldl max 0
  if longest > 1 then some (runs.findIdx (· = longest)) else none

/-- step 4: the loop over the pieces -/
def ipv6Pieces (compress : Option Nat) (address : List Nat) (ignore0 : Bool) (output : Str) : List Nat → Str
  | [] => output
  | pieceIndex :: rest =>
    let piece := address.getD pieceIndex 0
    if ignore0 = true ∧ piece = 0 then ipv6Pieces compress address ignore0 output rest
    else
      if compress = some pieceIndex then
        let separator := if pieceIndex = 0 then u!"::" else u!":"
        ipv6Pieces compress address true (output ++ separator) rest
      else
        let output := output ++ hexText piece
        let output := if pieceIndex ≠ 7 then output ++ u!":" else output
        ipv6Pieces compress address false output rest

/-- https://url.spec.whatwg.org/#concept-ipv6-serializer -/
def ipv6Serializer (address : List Nat) : Str :=
  ipv6Pieces (compressIndex address) address false [] [0, 1, 2, 3, 4, 5, 6, 7]

/-- https://url.spec.whatwg.org/#concept-host-serializer -/
def hostSerializer : Host → Str
  | .ipv4 n => ipv4Serializer n
  | .ipv6 a => u!"[" ++ ipv6Serializer a ++ u!"]"
  | .str s => s

/-! ### URLs: https://url.spec.whatwg.org/#url-serializing -/

/-- "For each segment of url's path: append U+002F (/) followed by segment to output." -/
def segmentsText : List Str → Str
  | [] => []
  | segment :: rest => u!"/" ++ segment ++ segmentsText rest

/-- https://url.spec.whatwg.org/#url-path-serializer -/
def pathSerializer : Path → Str
  | .opaque s => s
  | .list segments => segmentsText segments

/-- https://url.spec.whatwg.org/#concept-url-serializer -/
def urlSerializer (url : Rec) (excludeFragment : Bool) : Str :=
  let output := url.scheme ++ u!":"
  let output :=
    match url.host with
    | some host =>
      let output := output ++ u!"//"
      let output :=
        if url.username ≠ [] ∨ url.password ≠ [] then
          let output := output ++ url.username
          let output := if url.password ≠ [] then output ++ u!":" ++ url.password else output
          output ++ u!"@"
        else output
      let output := output ++ hostSerializer host
      match url.port with
      | some port => output ++ u!":" ++ decText port
      | none => output
    | none =>
      match url.path with
      | .list ([] :: _ :: _) => output ++ u!"/."
      | _ => output
  let output := output ++ pathSerializer url.path
  let output :=
    match url.query with
    | some query => output ++ u!"?" ++ query
    | none => output
  match url.fragment, excludeFragment with
  | some fragment, false => output ++ u!"#" ++ fragment
  | _, _ => output

/-! ### Getters: https://url.spec.whatwg.org/#api -/

/-- https://url.spec.whatwg.org/#dom-url-host -/
def hostGetter (url : Rec) : Str :=
  match url.host, url.port with
  | none, _ => []
  | some host, none => hostSerializer host
  | some host, some port => hostSerializer host ++ u!":" ++ decText port

/-- https://url.spec.whatwg.org/#dom-url-hostname -/
def hostnameGetter (url : Rec) : Str :=
  match url.host with
  | none => []
  | some host => hostSerializer host

/-- https://url.spec.whatwg.org/#dom-url-port -/
def portGetter (url : Rec) : Str :=
  match url.port with
  | none => []
  | some port => decText port

/-- https://url.spec.whatwg.org/#dom-url-search -/
def searchGetter (url : Rec) : Str :=
  match url.query with
  | none | some [] => []
  | some query => u!"?" ++ query

/-- https://url.spec.whatwg.org/#dom-url-hash -/
def hashGetter (url : Rec) : Str :=
  match url.fragment with
  | none | some [] => []
  | some fragment => u!"#" ++ fragment

/-- the serialization of the origin of a URL whose scheme is not "blob": a tuple origin for the schemes listed, and an
opaque origin otherwise (https://html.spec.whatwg.org/multipage/browsers.html#ascii-serialisation-of-an-origin) -/
def plainOrigin (url : Rec) : Str :=
  if url.scheme ∈ [u!"ftp", u!"http", u!"https", u!"ws", u!"wss"] then
    url.scheme ++ u!"://" ++ hostGetter url
  else u!"null"

/-- https://url.spec.whatwg.org/#concept-url-origin with https://url.spec.whatwg.org/#dom-url-origin. There are
no blob URL entries. -/
def OriginGetter (hostParse : Str → Bool → Option Host) (url : Rec) (t : Str) : Prop :=
  (url.scheme ≠ u!"blob" ∧ t = plainOrigin url) ∨
  (url.scheme = u!"blob" ∧
    ((∃ v, Parses hostParse (pathSerializer url.path) none .utf8 (.failure v) ∧ t = u!"null") ∨
     (∃ v, Parses hostParse (pathSerializer url.path) none .utf8 (.ok v) ∧
        ((v.scheme ∈ [u!"http", u!"https", u!"file"] ∧ t = plainOrigin v) ∨
         (v.scheme ∉ [u!"http", u!"https", u!"file"] ∧ t = u!"null")))))

end Urlstd.Spec
