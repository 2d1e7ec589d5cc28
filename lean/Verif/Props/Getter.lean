/-
Property C69: the serializers and the attribute getters follow the standard.
-/
import Verif.Lemmas.Serialize
import Verif.Props.Origin
import Verif.Props.HostParser

set_option linter.unusedSimpArgs false
set_option linter.unusedVariables false

namespace Urlstd.Props

open Spec (IsStr IsScalarStr RegularHost hostParser Parses ParseAsks)

/-- an IPv6 address has eight pieces -/
def Pieces8 (_ : Bool) (h : Host) : Prop := ∀ a, h = .ipv6 a → a.length = 8

theorem hostSpec_pieces (env : Env) : HostSpec env Pieces8 := by
  intro host m h hs hp a ha
  subst ha
  rcases hostParse_cases (log := (hostParse env host m).log) (by rw [← hp]) with
    ⟨_, h⟩ | ⟨t, b, _, _, _, hb, h⟩ | ⟨s, _, _, _, _, h⟩ | ⟨_, _, _, _, _, _, h⟩
  · cases h
  · cases h; exact (ipv6Parse_length hb).1
  · cases h
  · rcases h.2 with ⟨_, _, _, _, h⟩ | ⟨_, h⟩
    · cases h
    · cases h

theorem reached_pieces {env : Env} {o : URLObj} (h : Reached env o) :
    ∀ a, o.url.host = some (.ipv6 a) → a.length = 8 :=
  fun a ha => (h.objOK (hostSpec_pieces _)).url.auth.host _ ha a rfl

theorem parsed_pieces {env : Env} {u : Rec} (h : Parsed env u) : ∀ a, u.host = some (.ipv6 a) → a.length = 8 :=
  fun a ha => (h.wf (hostSpec_pieces _)).auth.host _ ha a rfl

/-! ### Hosts and records -/

/-- C69. IPv4 addresses are serialized as the standard says. -/
theorem C69_ipv4 (n : Nat) : ipv4Serialize n = Spec.ipv4Serializer n := ipv4Serializer_eq n

/-- C69. IPv6 addresses are serialized as the standard says. -/
theorem C69_ipv6 (a : List Nat) (h : a.length = 8) : ipv6Serialize a = Spec.ipv6Serializer a := ipv6Serializer_eq h

/-- C69. What the URL parser returns is serialized as the standard says, with and without fragment. -/
theorem C69_serialize (env : Env) (u : Rec) (h : Parsed env u) (excludeFragment : Bool) :
    u.serialize excludeFragment = Spec.urlSerializer u excludeFragment := urlSerializer_eq (parsed_pieces h) _

/-! ### Getters -/

theorem hostGetter_eq {u : Rec} (h6 : ∀ a, u.host = some (.ipv6 a) → a.length = 8) :
    (match u.host with | none => [] | some h => hostSerialize h ++ u.serializePort) = Spec.hostGetter u := by
  unfold Spec.hostGetter Rec.serializePort
  cases hh : u.host with
  | none => rfl
  | some h =>
    cases hp : u.port with
    | none => simp [hostSerializer_eq (h := h) (fun a e => h6 a (by rw [hh, e]))]
    | some p => simp [hostSerializer_eq (h := h) (fun a e => h6 a (by rw [hh, e])), natDec_decText]

/-- C69. On every URL object that can be reached, `href`, `protocol`, `username`, `password`, `host`, `hostname`,
`port`, `pathname`, `search` and `hash` are what the standard's getters return. -/
theorem C69_getters (env : Env) (o : URLObj) (h : Reached env o) :
    o.href = Spec.urlSerializer o.url false ∧
    o.protocol = o.url.scheme ++ u!":" ∧
    o.username = o.url.username ∧
    o.password = o.url.password ∧
    o.host = Spec.hostGetter o.url ∧
    o.hostname = Spec.hostnameGetter o.url ∧
    o.port = Spec.portGetter o.url ∧
    o.pathname = Spec.pathSerializer o.url.path ∧
    o.search = Spec.searchGetter o.url ∧
    o.hash = Spec.hashGetter o.url := by
  have h6 := reached_pieces h
  refine ⟨urlSerializer_eq h6 _, rfl, rfl, rfl, hostGetter_eq h6, ?_, ?_, pathSerializer_eq _, ?_, ?_⟩
  · unfold URLObj.hostname Rec.serializeHost Spec.hostnameGetter
    cases hh : o.url.host with
    | none => rfl
    | some x => exact hostSerializer_eq (fun a e => h6 a (by rw [hh, e]))
  · unfold URLObj.port Spec.portGetter
    cases o.url.port with
    | none => rfl
    | some p => exact natDec_decText p
  · unfold URLObj.search Spec.searchGetter
    rcases o.url.query with _ | _ | ⟨c, q⟩ <;> rfl
  · unfold URLObj.hash Spec.hashGetter
    rcases o.url.fragment with _ | _ | ⟨c, q⟩ <;> rfl

/-! ### Origin -/

theorem path_scalar {k : Bool} {P : Bool → Host → Prop} {u : Rec} (h : WF k P u) : IsScalarStr (serializePath u.path) := by
  have key : ∀ c, safeC0 c = true → c ≤ 0x10FFFF ∧ ¬ Spec.Surrogate c := by
    intro c hc
    simp only [safeC0, Bool.and_eq_true, decide_eq_true_eq] at hc
    exact ⟨by omega, fun hs => by unfold Spec.Surrogate at hs; omega⟩
  have hp := h.path
  unfold PathWF at hp
  intro c hc
  split at hp
  · next p heq =>
    rw [heq] at hc
    simp only [serializePath, List.mem_flatMap, List.mem_cons] at hc
    obtain ⟨s, hs, rfl | hc⟩ := hc
    · exact key _ (by decide)
    · have := ((hp.1.segs s hs).chars c hc).1
      simp only [safePath, safeQuery, Bool.and_eq_true] at this
      exact key c this.1.1
  · next s heq =>
    rw [heq] at hc
    exact key c (hp.1.chars c hc).1

theorem plain_eq {u : Rec} (h6 : ∀ a, u.host = some (.ipv6 a) → a.length = 8) (hn : u.host = none → u.port = none) :
    (match u.originNonBlob with | none => u!"null" | some x => x.toStr) = Spec.plainOrigin u := by
  unfold Rec.originNonBlob Spec.plainOrigin hasTupleOrigin
  by_cases hs : u.scheme ∈ [u!"ftp", u!"http", u!"https", u!"ws", u!"wss"]
  · rw [if_pos (by simpa using hs), if_pos hs, ← hostGetter_eq h6]
    unfold Origin.toStr Rec.serializePort
    cases hh : u.host with
    | none => simp [hn hh]
    | some x => cases u.port <;> simp
  · rw [if_neg (by simpa using hs), if_neg hs]

/-- `URL.origin` for a host parser with which the standard parses the path of a blob URL as the code does -/
theorem origin_of_parser (env : Env) (o : URLObj) (h : Reached env o) (hp : Str → Bool → Option Host)
    (hl : o.url.scheme = u!"blob" → ¬ LongInput env o.pathname.length)
    (hpar : o.url.scheme = u!"blob" →
      (∀ u, (parseUrl env.quiet o.pathname).res = .ok u ↔ Parses hp o.pathname none .utf8 (.ok u)) ∧
      ((∃ err, (parseUrl env.quiet o.pathname).res = .error err ∧ err.isURLParseError = true) ↔
        ∃ u, Parses hp o.pathname none .utf8 (.failure u))) (t : Str) :
    o.origin env = .ok t ↔ Spec.OriginGetter hp o.url t := by
  have hw := (h.objOK (hostSpec_pieces _)).url
  unfold Spec.OriginGetter
  rw [← pathSerializer_eq]
  by_cases hb : o.url.scheme = u!"blob"
  · have hlq : ¬ LongInput env.quiet (serializePath o.url.path).length := hl hb
    have hs := path_scalar hw
    have hp' := hpar hb
    change (∀ u, (parseUrl env.quiet (serializePath o.url.path)).res = .ok u ↔ Parses hp (serializePath o.url.path) none .utf8 (.ok u)) ∧
      ((∃ err, (parseUrl env.quiet (serializePath o.url.path)).res = .error err ∧ err.isURLParseError = true) ↔ ∃ u,
        Parses hp (serializePath o.url.path) none .utf8 (.failure u)) at hp'
    obtain ⟨h1, h2, h3, h4⟩ := C56_blob env.quiet o.url hb _ rfl
    change ∀ p, (parseUrl env.quiet (serializePath o.url.path)).res = .ok p → _ at h1
    change ∀ p, (parseUrl env.quiet (serializePath o.url.path)).res = .ok p → _ at h2
    change ∀ p, (parseUrl env.quiet (serializePath o.url.path)).res = .error p → _ at h3
    simp only [hb, not_true, ne_eq, false_and, false_or, true_and]
    cases hres : (parseUrl env.quiet (serializePath o.url.path)).res with
    | ok v =>
      have hv : Parsed env.quiet v := .alone (e := .utf8) (fun c hc => (hs c hc).1) trivial hres
      have hok := (hp'.1 v).1 hres
      have hun : ∀ v', Parses hp (serializePath o.url.path) none .utf8 (.ok v') → v' = v := by
        intro v' hv'
        have := (hp'.1 v').2 hv'
        rw [hres] at this
        cases this; rfl
      have hnf : ∀ v', ¬ Parses hp (serializePath o.url.path) none .utf8 (.failure v') := by
        intro v' hv'
        obtain ⟨err, he, _⟩ := hp'.2.2 ⟨v', hv'⟩
        rw [hres] at he; cases he
      have hplain := plain_eq (parsed_pieces hv) (hv.wf (hostSpec_true _)).auth.null
      have hval : o.origin env =
          .ok (if v.scheme ∈ [u!"http", u!"https", u!"file"] then Spec.plainOrigin v else u!"null") := by
        unfold URLObj.origin
        by_cases hh : v.scheme = u!"http" ∨ v.scheme = u!"https"
        · rw [h1 v hres hh, if_pos (by rcases hh with hh | hh <;> simp [hh]), ← hplain]
          rcases hh with hh | hh <;> simp [Rec.originNonBlob, hasTupleOrigin, hh]
        · rw [not_or] at hh
          rw [h2 v hres hh.1 hh.2]
          by_cases hf : v.scheme = u!"file"
          · rw [if_pos (by simp [hf]), ← hplain]
            simp [Rec.originNonBlob, hasTupleOrigin, hf]
          · rw [if_neg (by simp [hf, hh.1, hh.2])]
      rw [hval]
      constructor
      · intro e
        cases e
        refine .inr ⟨v, hok, ?_⟩
        split
        · next hm => exact .inl ⟨hm, rfl⟩
        · next hm => exact .inr ⟨hm, rfl⟩
      · rintro (⟨v', hv', _⟩ | ⟨v', hv', ht⟩)
        · exact absurd hv' (hnf v')
        · cases hun v' hv'
          rcases ht with ⟨hm, rfl⟩ | ⟨hm, rfl⟩
          · rw [if_pos hm]
          · rw [if_neg hm]
    | error e =>
      have he : e.isURLParseError = true := by
        rcases C21_errors env.quiet _ .none .utf8 e (fun c hc => (hs c hc).1) trivial trivial hres with he | ⟨_, he⟩
        · exact he
        · exact absurd (by simpa [BaseArg.length] using he) hlq
      obtain ⟨v, hv⟩ := hp'.2.1 ⟨e, hres, he⟩
      have hno : ∀ v', ¬ Parses hp (serializePath o.url.path) none .utf8 (.ok v') := by
        intro v' hv'
        have := (hp'.1 v').2 hv'
        rw [hres] at this; cases this
      unfold URLObj.origin
      rw [h3 e hres he]
      constructor
      · intro ht; cases ht; exact .inl ⟨v, hv, rfl⟩
      · rintro (⟨_, _, rfl⟩ | ⟨v', hv', _⟩)
        · rfl
        · exact absurd hv' (hno v')
  · simp only [hb, not_false_eq_true, ne_eq, true_and, false_and, or_false]
    have : o.url.origin env.quiet = .ok o.url.originNonBlob := by unfold Rec.origin; rw [if_neg hb]
    unfold URLObj.origin
    rw [this, ← plain_eq (reached_pieces h) hw.auth.null]
    cases o.url.originNonBlob with
    | none => exact ⟨fun e => by cases e; rfl, fun e => by rw [e]⟩
    | some x => exact ⟨fun e => by cases e; rfl, fun e => by rw [e]⟩

/-- C69 (partial, as C56 and C66 are: for a blob URL the path does not exceed CPython's limit on the digits of a number,
and no deviating text is handed to the host parser). `URL.origin` is the serialization of the origin the standard
defines. -/
theorem C69_origin_partial (env : Env) (henv : EnvOK env) (o : URLObj) (h : Reached env o)
    (hl : o.url.scheme = u!"blob" → ¬ LongInput env o.pathname.length)
    (hr : o.url.scheme = u!"blob" →
      ∀ t m, ParseAsks (hostParser (env.nameToAscii false)) o.pathname none .utf8 t m →
        RegularHost (Spec.domainToASCII (env.nameToAscii false)) t m) (t : Str) :
    o.origin env = .ok t ↔ Spec.OriginGetter (hostParser (env.nameToAscii false)) o.url t := by
  refine origin_of_parser env o h _ hl (fun hb => ?_) t
  have hs := path_scalar (h.objOK (hostSpec_pieces _)).url
  exact C66_parser_partial env.quiet henv none (fun b hb => (by cases hb)) (serializePath o.url.path) hs .utf8
    trivial trivial (hl hb) (fun b hb => (by cases hb)) (hr hb)

/-- C69 (partial, as C56 is: for a blob URL the path does not exceed CPython's limit on the digits of a number). With the
host parser of the code, `URL.origin` is the serialization of the origin the standard defines. -/
theorem C69_origin_own_partial (env : Env) (o : URLObj) (h : Reached env o)
    (hl : o.url.scheme = u!"blob" → ¬ LongInput env o.pathname.length) (t : Str) :
    o.origin env = .ok t ↔ Spec.OriginGetter (hostOf env.quiet) o.url t := by
  refine origin_of_parser env o h _ hl (fun hb => ?_) t
  have hs := path_scalar (h.objOK (hostSpec_pieces _)).url
  exact C65_parser_partial env.quiet none (fun b hb => (by cases hb)) (serializePath o.url.path) hs .utf8
    trivial trivial (hl hb) (fun b hb => (by cases hb))

/-- `URL("blob:http://1_0/")` -/
def blobNumeral : URLObj := ⟨{ scheme := u!"blob", path := .opaque u!"http://1_0/" }, []⟩

/-- C69 is false: `URL("blob:http://1_0/").origin` is "http://0.0.0.10", by the standard it is "http://1_0". -/
theorem C69_false_origin : Reached exEnv blobNumeral ∧ blobNumeral.origin exEnv = .ok u!"http://0.0.0.10" ∧
    Spec.OriginGetter (hostParser (exEnv.nameToAscii false)) blobNumeral.url u!"http://1_0" := by
  refine ⟨.new (s := u!"blob:http://1_0/") (by decide) (by decide +kernel), by decide +kernel, .inr ⟨rfl, .inr
    ⟨{ scheme := u!"http", host := some (.str u!"1_0"), path := .list [[]] },
      Spec.exec_halts (n := 200) (by decide +kernel), .inl ⟨by decide, by decide⟩⟩⟩⟩

/-! ### The hypotheses are met -/

example : Spec.ipv6Serializer [1, 0, 0, 2, 0, 0, 0, 3] = u!"1:0:0:2::3" := by
  simp [Spec.ipv6Serializer, Spec.ipv6Pieces, Spec.hexText,
    show Spec.compressIndex [1, 0, 0, 2, 0, 0, 0, 3] = some 4 by decide]
example : Spec.ipv6Serializer [0, 0, 3, 0, 0, 3, 0xAB, 0] = u!"::3:0:0:3:ab:0" := by
  simp [Spec.ipv6Serializer, Spec.ipv6Pieces, Spec.hexText,
    show Spec.compressIndex [0, 0, 3, 0, 0, 3, 0xAB, 0] = some 0 by decide]
example : Spec.ipv6Serializer [1, 0, 3, 0, 5, 6, 7, 8] = u!"1:0:3:0:5:6:7:8" := by
  simp [Spec.ipv6Serializer, Spec.ipv6Pieces, Spec.hexText,
    show Spec.compressIndex [1, 0, 3, 0, 5, 6, 7, 8] = none by decide]

/-- `URL("http://u:p@[1::2]:81//a?q#f")` -/
def exFull : URLObj :=
  ⟨{ scheme := u!"http", username := u!"u", password := u!"p", host := some (.ipv6 [1, 0, 0, 0, 0, 0, 0, 2]), port := some 81,
     path := .list [[], u!"a"], query := some u!"q", fragment := some u!"f" }, [(u!"q", [])]⟩

theorem exFull_reached : Reached exEnv exFull :=
  .new (s := u!"http://u:p@[1::2]:81//a?q#f") (by decide) (by decide +kernel)

example : Spec.urlSerializer exFull.url false = u!"http://u:p@[1::2]:81//a?q#f" := by
  rw [← (C69_getters exEnv exFull exFull_reached).1]; decide +kernel
example : Spec.hostGetter exFull.url = u!"[1::2]:81" := by
  rw [← (C69_getters exEnv exFull exFull_reached).2.2.2.2.1]; decide +kernel
example : Spec.urlSerializer exRecord true = u!"http://u:p@ex.com:8080/a/c%20d?%C3%A9%27" := by
  rw [← C69_serialize exEnv exRecord exRecord_parsed]; decide +kernel

/-- `URL("blob:http://My-h%6Fst.example:80/a")` -/
def exBlob : URLObj := ⟨{ scheme := u!"blob", path := .opaque u!"http://My-h%6Fst.example:80/a" }, []⟩

theorem exBlob_reached : Reached exEnv exBlob :=
  .new (s := u!"blob:http://My-h%6Fst.example:80/a") (by decide) (by decide +kernel)

example : Spec.OriginGetter (hostParser (exEnv.nameToAscii false)) exBlob.url u!"http://my-host.example" :=
  (C69_origin_partial exEnv (.inr (by decide)) exBlob exBlob_reached (fun _ => exEnv_short (by decide)) (by
    intro _ t m ha
    have hm := Spec.asks_asked (n := 100) (l := [(u!"My-h%6Fst.example", false)]) ha (by decide +kernel)
    simp only [List.mem_singleton, Prod.mk.injEq] at hm
    obtain ⟨rfl, rfl⟩ := hm
    exact exEnv_regular) _).1 (by decide +kernel)

end Urlstd.Props
