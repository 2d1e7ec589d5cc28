/-
From the invariant of the parser to the specifications in `Spec/Url.lean`.
-/
import Verif.Lemmas.InvEval
import Verif.Spec.Url

set_option linter.unusedSimpArgs false
set_option linter.unusedVariables false

namespace Urlstd

open Spec (IsStr)

variable {k : Bool} {env : Env} {P : Bool → Host → Prop}

theorem basicParse_ok (hP : HostSpec env P) {e : Encoding} (he : EncOK e) {base : Option Rec}
    (hb : ∀ b, base = some b → WF k P b) {s : Str} (hs : IsStr s) {u : Rec}
    (h : (basicParse env s base e).toExcept = .ok u) : WF k P u := by
  have := basicParse_wf hP he hb hs
  rw [h] at this; exact this

theorem basicParse_error (hP : HostSpec env P) {e : Encoding} (he : EncOK e) {base : Option Rec}
    (hb : ∀ b, base = some b → WF k P b) {s : Str} (hs : IsStr s) {err : Err}
    (h : (basicParse env s base e).toExcept = .error err) : ParseErr env s.length err := by
  have := basicParse_wf hP he hb hs
  rw [h] at this; exact this

theorem parseUrl_none (env : Env) (s : Str) (e : Encoding) :
    (parseUrl env s .none e).res = (basicParse env s none e).toExcept := rfl
theorem parseUrl_record (env : Env) (s : Str) (b : Rec) (e : Encoding) :
    (parseUrl env s (.record b) e).res = (basicParse env s (some b) e).toExcept := rfl
theorem parseUrl_str (env : Env) (s b : Str) (e : Encoding) :
    (parseUrl env s (.str b) e).res =
      match (basicParse env b none e).toExcept with
      | .ok r => (basicParse env s (some r) e).toExcept
      | .error err => .error err := by
  unfold parseUrl
  dsimp only
  cases (basicParse env b none e).toExcept <;> rfl

theorem Parsed.wf (hP : HostSpec env P) {u : Rec} (h : Parsed env u) : WF true P u := by
  induction h with
  | alone hs he h => exact basicParse_ok hP he (by simp) hs h
  | @withString s b e u hs hb he h =>
    rw [parseUrl_str] at h
    cases hb' : (basicParse env b none e).toExcept with
    | error err => rw [hb'] at h; simp at h
    | ok r =>
      rw [hb'] at h
      refine basicParse_ok hP he ?_ hs h
      intro b' hb''
      cases hb''
      exact basicParse_ok hP he (by simp) hb hb'
  | @withRecord s b e u hs hb he h ih =>
    refine basicParse_ok hP he ?_ hs h
    intro b' hb''
    cases hb''
    exact ih

/-- results of `parse_url` -/
theorem parseUrl_parsed {s : Str} {base : BaseArg} {e : Encoding} {u : Rec} (hs : IsStr s) (hb : BaseOK env base)
    (he : EncOK e) (h : (parseUrl env s base e).res = .ok u) : Parsed env u := by
  cases base with
  | none => exact .alone hs he h
  | str b => exact .withString hs hb he h
  | record b => exact .withRecord hs hb he h

theorem parseUrl_error {s : Str} {base : BaseArg} {e : Encoding} {err : Err} (hs : IsStr s) (hb : BaseOK env base)
    (he : EncOK e) (h : (parseUrl env s base e).res = .error err) :
    ParseErr env (max s.length base.length) err := by
  cases base with
  | none => exact (basicParse_error (k := true) (hostSpec_true env) he (by simp) hs h).mono (by omega)
  | str b =>
    rw [parseUrl_str] at h
    cases hb' : (basicParse env b none e).toExcept with
    | error err' =>
      rw [hb'] at h
      simp only [Except.error.injEq] at h
      subst h
      refine (basicParse_error (k := true) (hostSpec_true env) he (by simp) hb hb').mono ?_
      simp only [BaseArg.length]; omega
    | ok r =>
      rw [hb'] at h
      refine (basicParse_error (k := true) (hostSpec_true env) he ?_ hs h).mono (by omega)
      intro b' hb''
      cases hb''
      exact basicParse_ok (hostSpec_true env) he (by simp) hb hb'
  | record b =>
    refine (basicParse_error (k := true) (hostSpec_true env) he ?_ hs h).mono (by omega)
    intro b' hb''
    cases hb''
    exact Parsed.wf (hostSpec_true env) hb

/-! ### Schemes and ports -/

theorem special_iff (s : Str) : isSpecialScheme s = true ↔ Spec.Special s := by
  unfold Spec.Special Spec.specialSchemes isSpecialScheme specialPort
  simp only [List.mem_cons, List.not_mem_nil, or_false, Prod.mk.injEq]
  constructor
  · intro h
    split at h
    · exact ⟨_, .inl ⟨by assumption, rfl⟩⟩
    · split at h
      · exact ⟨_, .inr (.inl ⟨by assumption, rfl⟩)⟩
      · split at h
        · exact ⟨_, .inr (.inr (.inl ⟨by assumption, rfl⟩))⟩
        · split at h
          · exact ⟨_, .inr (.inr (.inr (.inl ⟨by assumption, rfl⟩)))⟩
          · split at h
            · exact ⟨_, .inr (.inr (.inr (.inr (.inl ⟨by assumption, rfl⟩))))⟩
            · split at h
              · exact ⟨_, .inr (.inr (.inr (.inr (.inr ⟨by assumption, rfl⟩))))⟩
              · simp at h
  · rintro ⟨p, ⟨rfl, _⟩ | ⟨rfl, _⟩ | ⟨rfl, _⟩ | ⟨rfl, _⟩ | ⟨rfl, _⟩ | ⟨rfl, _⟩⟩ <;> decide

theorem default_of_mem {s : Str} {p : Nat} (h : (s, some p) ∈ Spec.specialSchemes) : isDefaultPort s p = true := by
  simp only [Spec.specialSchemes, List.mem_cons, List.not_mem_nil, or_false, Prod.mk.injEq, Option.some.injEq,
    reduceCtorEq, and_false, false_or] at h
  rcases h with ⟨rfl, rfl⟩ | ⟨rfl, rfl⟩ | ⟨rfl, rfl⟩ | ⟨rfl, rfl⟩ | ⟨rfl, rfl⟩ <;> decide

theorem SchemeOK.spec {s : Str} (h : SchemeOK s) : Spec.NormScheme s := by
  obtain ⟨c, cs, rfl, hc, hcs⟩ := h
  refine ⟨c, cs, rfl, hc, fun x hx => ?_⟩
  obtain ⟨h1, h2⟩ := hcs x hx
  simp only [isSchemeChar, isAlnum, isAlpha, isDigit, List.contains_eq_mem, List.mem_cons, List.not_mem_nil, or_false,
    Bool.or_eq_true, Bool.and_eq_true, decide_eq_true_eq] at h1
  unfold Spec.LowerAlpha Spec.Digit
  omega

/-! ### Dot segments -/

theorem percentDecode_nil {s : Str} (h : Spec.percentDecode s = []) : s = [] := by
  unfold Spec.percentDecode at h
  split at h
  · split at h <;> simp at h
  · simp at h
  · rfl

theorem percentDecode_cons {s : Str} {x : Nat} {t : Str} (h : Spec.percentDecode s = x :: t) :
    (∃ r, s = x :: r ∧ Spec.percentDecode r = t) ∨
    (∃ a b r, s = 37 :: a :: b :: r ∧ isHex a = true ∧ isHex b = true ∧ hexVal a * 16 + hexVal b = x ∧
      Spec.percentDecode r = t) := by
  unfold Spec.percentDecode at h
  split at h
  · rename_i a b r
    split at h
    · rename_i hh
      simp only [List.cons.injEq] at h
      exact .inr ⟨a, b, r, rfl, hh.1, hh.2, h.1, h.2⟩
    · simp only [List.cons.injEq] at h
      obtain ⟨rfl, h⟩ := h
      exact .inl ⟨_, rfl, h⟩
  · simp only [List.cons.injEq] at h
    obtain ⟨rfl, h⟩ := h
    exact .inl ⟨_, rfl, h⟩
  · simp at h

theorem hex_dot {a b : Nat} (ha : isHex a = true) (hb : isHex b = true) (h : hexVal a * 16 + hexVal b = 46) :
    a = 50 ∧ (b = 101 ∨ b = 69) := by
  rw [isHex_iff] at ha hb
  unfold hexVal isDigit at h
  simp only [Bool.and_eq_true, decide_eq_true_eq] at h
  split at h <;> split at h <;> (try split at h) <;> (try split at h) <;> omega

theorem percentDecode_dot {s t : Str} (h : Spec.percentDecode s = 46 :: t) :
    ∃ r, Spec.percentDecode r = t ∧ (s = 46 :: r ∨ s = 37 :: 50 :: 101 :: r ∨ s = 37 :: 50 :: 69 :: r) := by
  rcases percentDecode_cons h with ⟨r, rfl, hr⟩ | ⟨a, b, r, rfl, ha, hb, hv, hr⟩
  · exact ⟨r, hr, .inl rfl⟩
  · obtain ⟨rfl, rfl | rfl⟩ := hex_dot ha hb hv
    · exact ⟨r, hr, .inr (.inl rfl)⟩
    · exact ⟨r, hr, .inr (.inr rfl)⟩

theorem dotSegment_of_spec {s : Str} (h : Spec.DotSegment s) : isSingleDot s = true ∨ isDoubleDot s = true := by
  rcases h with h | h
  · left
    obtain ⟨r, hr, h⟩ := percentDecode_dot h
    have := percentDecode_nil hr
    subst this
    rcases h with rfl | rfl | rfl <;> decide
  · right
    obtain ⟨r, hr, h⟩ := percentDecode_dot h
    obtain ⟨r', hr', h'⟩ := percentDecode_dot hr
    have := percentDecode_nil hr'
    subst this
    rcases h with rfl | rfl | rfl <;> rcases h' with rfl | rfl | rfl <;> decide

/-! ### Characters -/

theorem safeUserinfo_print {c : Nat} (h : safeUserinfo c = true) : 32 < c ∧ c ≤ 126 := by safe_simp at h; omega
theorem safePath_print {c : Nat} (h : safePath c = true) : 32 < c ∧ c ≤ 126 := by safe_simp at h; omega
theorem safeFragment_print {c : Nat} (h : safeFragment c = true) : 32 < c ∧ c ≤ 126 := by safe_simp at h; omega
theorem safeC0_print {c : Nat} (h : safeC0 c = true) : 32 ≤ c ∧ c ≤ 126 := by safe_simp at h; omega
theorem querySafe_print {b : Bool} {c : Nat} (h : querySafe b c = true) : 32 < c ∧ c ≤ 126 := by
  cases b
  · simp only [querySafe, Bool.false_eq_true, if_false] at h; safe_simp at h; omega
  · simp only [querySafe, if_true] at h; safe_simp at h; omega
theorem digit_print {c : Nat} (h : isDigit c = true) : 32 < c ∧ c ≤ 126 := by rw [isDigit_iff] at h; omega

theorem SchemeOK.print {s : Str} (h : SchemeOK s) : ∀ c ∈ s, 32 < c ∧ c ≤ 126 := by
  obtain ⟨c, cs, rfl, hc, hcs⟩ := h.spec
  unfold Spec.LowerAlpha Spec.Digit at *
  intro x hx
  rcases List.mem_cons.1 hx with rfl | hx
  · omega
  · have := hcs x hx; omega

theorem HostWF.print {m : Bool} {h : Host} (hw : HostWF env m h) : ∀ c ∈ hostSerialize h, 32 < c ∧ c ≤ 126 := by
  cases h with
  | str s =>
    intro c hc
    change c ∈ s at hc
    rcases hw with rfl | ⟨_, h⟩ | ⟨_, h⟩
    · simp at hc
    · have := h.2 c hc; omega
    · obtain ⟨h1, h2⟩ := h.chars c hc
      have : ¬ Spec.ForbiddenDomainCP c := by rw [← isForbiddenDomain_iff, h2]; simp
      unfold Spec.ForbiddenDomainCP Spec.ForbiddenHostCP at this
      simp only [List.mem_cons, List.not_mem_nil, or_false, not_or] at this
      omega
  | ipv4 n =>
    intro c hc
    rcases ipv4Serialize_digits n c hc with h | h
    · exact digit_print h
    · omega
  | ipv6 a =>
    intro c hc
    simp only [hostSerialize, List.mem_append, List.mem_cons, List.not_mem_nil, or_false] at hc
    rcases hc with (hc | hc) | hc
    · omega
    · rcases ipv6Serialize_mem hw c hc with h | h
      · rw [isHex_iff] at h; omega
      · omega
    · omega

/-! ### The specifications -/

theorem hostSerialize_nil {h : Host} (hs : hostSerialize h = []) : h = .str [] := by
  cases h with
  | str s => exact congrArg Host.str hs
  | ipv4 n => exact absurd hs (ipv4Serialize_ne_nil n)
  | ipv6 a => simp [hostSerialize] at hs

theorem WF.specialHasHost {u : Rec} (h : WF k P u) : Spec.SpecialHasHost u := by
  intro hsp
  have hsp : u.isSpecial = true := (special_iff _).2 hsp
  obtain ⟨h1, h2⟩ := h.auth.special hsp
  refine ⟨?_, ?_⟩
  · cases hh : u.host with
    | none => exact absurd hh h1
    | some x =>
      refine ⟨x, rfl, fun hs => h2 ?_⟩
      rw [hh, hs]
  · have hp := h.path
    unfold PathWF at hp
    split at hp
    · rename_i p heq; exact ⟨p, heq, hp.2.1 hsp⟩
    · exact absurd hp.2 h1

theorem WF.opaqueIsBare {u : Rec} (h : WF k P u) : Spec.OpaqueIsBare u := by
  intro s hs
  have hp := h.path
  unfold PathWF at hp
  rw [hs] at hp
  obtain ⟨h1, h2, h3⟩ := h.auth.loose (.inl hp.2)
  exact ⟨hp.2, h1, h2, h.auth.null hp.2⟩

theorem WF.portOK {u : Rec} (h : WF k P u) : Spec.PortOK u := by
  intro p hp
  obtain ⟨h1, h2⟩ := h.auth.port p hp
  refine ⟨h1, fun hm => ?_⟩
  rw [default_of_mem hm] at h2; cases h2

theorem WF.segmentsOK {u : Rec} (h : WF k P u) : Spec.SegmentsOK u := by
  intro segs hs s hm
  have hp := h.path
  unfold PathWF at hp
  rw [hs] at hp
  have hseg := hp.1.segs s hm
  refine ⟨fun hd => ?_, fun c hc => ?_⟩
  · rcases dotSegment_of_spec hd with h | h
    · rw [hseg.single] at h; cases h
    · rw [hseg.double] at h; cases h
  · obtain ⟨h1, h2⟩ := hseg.chars c hc
    have h3 := safePath_print h1
    unfold Spec.Printable
    rw [← special_iff]
    simp only [isPathSep, Bool.or_eq_false_iff, Bool.and_eq_false_iff, beq_eq_false_iff_ne, decide_eq_false_iff_not] at h2
    safe_simp at h1
    refine ⟨by omega, by omega, by omega, by omega, by omega, fun hsp => ?_⟩
    rcases h2.2 with h | h
    · rw [hsp] at h; cases h
    · exact h

theorem querySafe_spec {scheme : Str} {c : Nat} (h : querySafe (isSpecialScheme scheme) c = true) :
    Spec.Printable c ∧ c ≠ c!" " ∧ c ≠ c!"#" ∧ c ≠ c!"\"" ∧ c ≠ c!"<" ∧ c ≠ c!">" ∧
    (Spec.Special scheme → c ≠ c!"'") := by
  unfold Spec.Printable
  rw [← special_iff]
  cases hsp : isSpecialScheme scheme
  · rw [hsp] at h
    simp only [querySafe, Bool.false_eq_true, if_false] at h
    safe_simp at h
    refine ⟨by omega, by omega, by omega, by omega, by omega, by omega, by simp⟩
  · rw [hsp] at h
    simp only [querySafe, if_true] at h
    safe_simp at h
    refine ⟨by omega, by omega, by omega, by omega, by omega, by omega, fun _ => by omega⟩

theorem WF.queryOK {u : Rec} (h : WF k P u) : Spec.QueryOK u := by
  intro q hq c hc
  exact querySafe_spec (h.query q hq c hc)

theorem safeFragment_spec {c : Nat} (h : safeFragment c = true) :
    Spec.Printable c ∧ c ≠ c!" " ∧ c ≠ c!"\"" ∧ c ≠ c!"<" ∧ c ≠ c!">" ∧ c ≠ c!"`" := by
  unfold Spec.Printable
  safe_simp at h
  omega

theorem WF.fragmentOK {u : Rec} (h : WF k P u) : Spec.FragmentOK u := by
  intro f hf c hc
  exact safeFragment_spec (h.frag f hf c hc)

/-! ### The serialization -/

/-- what stands before the path in the serialization -/
def Rec.beforePath (u : Rec) : Str :=
  u.scheme ++ u!":" ++
  (match u.host with
    | some h => u!"//" ++ u.serializeCredentials ++ hostSerialize h ++ u.serializePort
    | none => []) ++
  (if u.needsDot then u!"/." else [])

/-- what stands behind the path in the serialization -/
def Rec.afterPathStr (u : Rec) : Str :=
  (match u.query with
    | some q => c!"?" :: q
    | none => []) ++
  (match u.fragment with
    | some f => c!"#" :: f
    | none => [])

theorem serialize_split (u : Rec) : u.serialize = u.beforePath ++ serializePath u.path ++ u.afterPathStr := by
  unfold Rec.serialize Rec.beforePath Rec.afterPathStr
  simp only [List.append_assoc, if_false, Bool.false_eq_true]
  rfl

/-- characters of the serialization, from those of the parts; `Q` is a property of characters -/
theorem beforePath_mem {u : Rec} {c : Nat} (hc : c ∈ u.beforePath) :
    c ∈ u.scheme ∨ c ∈ u.username ∨ c ∈ u.password ∨ (∃ h, u.host = some h ∧ c ∈ hostSerialize h) ∨
    isDigit c = true ∨ c = 58 ∨ c = 47 ∨ c = 46 ∨ c = 64 := by
  simp only [Rec.beforePath, List.mem_append] at hc
  rcases hc with ((hc | hc) | hc) | hc
  · exact .inl hc
  · simp at hc; omega
  · cases hh : u.host with
    | none => rw [hh] at hc; simp at hc
    | some x =>
      rw [hh] at hc
      simp only [List.mem_append] at hc
      rcases hc with ((hc | hc) | hc) | hc
      · simp at hc; omega
      · unfold Rec.serializeCredentials at hc
        split at hc
        · simp only [List.mem_append] at hc
          rcases hc with (hc | hc) | hc
          · exact .inr (.inl hc)
          · split at hc
            · simp at hc
            · rcases List.mem_cons.1 hc with hc | hc
              · omega
              · exact .inr (.inr (.inl hc))
          · simp at hc; omega
        · simp at hc
      · exact .inr (.inr (.inr (.inl ⟨x, rfl, hc⟩)))
      · unfold Rec.serializePort at hc
        split at hc
        · simp at hc
        · rcases List.mem_cons.1 hc with hc | hc
          · omega
          · exact .inr (.inr (.inr (.inr (.inl (natDec_digits _ c hc)))))
  · split at hc
    · simp at hc; omega
    · simp at hc

theorem afterPathStr_mem {u : Rec} {c : Nat} (hc : c ∈ u.afterPathStr) :
    (∃ q, u.query = some q ∧ c ∈ q) ∨ (∃ f, u.fragment = some f ∧ c ∈ f) ∨ c = 63 ∨ c = 35 := by
  simp only [Rec.afterPathStr, List.mem_append] at hc
  rcases hc with hc | hc
  · split at hc
    · rename_i q heq
      rcases List.mem_cons.1 hc with hc | hc
      · omega
      · exact .inl ⟨q, heq, hc⟩
    · simp at hc
  · split at hc
    · rename_i f heq
      rcases List.mem_cons.1 hc with hc | hc
      · omega
      · exact .inr (.inl ⟨f, heq, hc⟩)
    · simp at hc

theorem WF.beforePath_print {u : Rec} (h : WF k (HostWF env) u) : ∀ c ∈ u.beforePath, 32 < c ∧ c ≤ 126 := by
  intro c hc
  rcases beforePath_mem hc with hc | hc | hc | ⟨x, hx, hc⟩ | hc | hc
  · exact h.auth.scheme.print c hc
  · exact safeUserinfo_print (h.auth.user c hc)
  · exact safeUserinfo_print (h.auth.pass c hc)
  · exact (h.auth.host x hx).print c hc
  · exact digit_print hc
  · omega

theorem WF.afterPath_print {u : Rec} (h : WF k P u) : ∀ c ∈ u.afterPathStr, 32 < c ∧ c ≤ 126 := by
  intro c hc
  rcases afterPathStr_mem hc with ⟨q, hq, hc⟩ | ⟨f, hf, hc⟩ | hc
  · exact querySafe_print (h.query q hq c hc)
  · exact safeFragment_print (h.frag f hf c hc)
  · omega

theorem WF.listPath_print {u : Rec} (h : WF k P u) {segs : List Str} (hs : u.path = .list segs) :
    ∀ c ∈ serializePath u.path, 32 < c ∧ c ≤ 126 := by
  intro c hc
  rw [hs] at hc
  simp only [serializePath, List.mem_flatMap] at hc
  obtain ⟨s, hm, hc⟩ := hc
  rcases List.mem_cons.1 hc with hc | hc
  · omega
  · have := h.segmentsOK segs hs s hm
    have := this.2 c hc
    unfold Spec.Printable at this
    omega

theorem WF.hrefOK {u : Rec} (h : WF k (HostWF env) u) : Spec.HrefOK u := by
  have hb := h.beforePath_print
  have ha := h.afterPath_print
  unfold Spec.HrefOK Spec.Printable
  refine ⟨fun c hc => ?_, fun segs hs hc => ?_, fun s hs => ?_⟩
  · rw [serialize_split, List.mem_append, List.mem_append] at hc
    rcases hc with (hc | hc) | hc
    · have := hb c hc; omega
    · cases hp : u.path with
      | list segs => have := h.listPath_print hp c hc; omega
      | «opaque» s =>
        have hw := h.path
        unfold PathWF at hw
        rw [hp] at hw
        rw [hp] at hc
        exact safeC0_print (hw.1.chars c hc).1
    · have := ha c hc; omega
  · rw [serialize_split, List.mem_append, List.mem_append] at hc
    rcases hc with (hc | hc) | hc
    · have := hb _ hc; omega
    · have := h.listPath_print hs _ hc; omega
    · have := ha _ hc; omega
  · refine ⟨u.beforePath, u.afterPathStr, ?_, fun hc => ?_, fun hc => ?_⟩
    · rw [serialize_split, hs]; rfl
    · have := hb _ hc; omega
    · have := ha _ hc; omega

end Urlstd
