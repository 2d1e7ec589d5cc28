/-
The text of an origin, read as a URL (C103).
-/
import Verif.Lemmas.Place4
import Verif.Props.OriginExact
import Verif.Props.Place
import Verif.Props.Generic
import Verif.Props.Getter

namespace Urlstd

open Props (reached_wf C56_tuple C56_opaque C56_blob serialize_denotes)
open Spec (IsStr Denotes tailText TailOK)

variable {env : Env}

/-- the URL with this origin and the path "/" -/
def originRec (a : Origin) : Rec := { scheme := a.scheme, host := a.host, port := a.port, path := .list [[]] }

/-- the origins that there are -/
structure OriginOK (env : Env) (a : Origin) : Prop where
  scheme : a.scheme ∈ Spec.tupleOriginSchemes
  domain : a.domain = none
  wf : WF true (HostWF env) (originRec a)

theorem EnvOK.quiet (h : EnvOK env) : EnvOK env.quiet := h

theorem tuple_special {s : Str} (h : s ∈ Spec.tupleOriginSchemes) : isSpecialScheme s = true ∧ s ≠ u!"file" :=
  (by decide : ∀ s ∈ Spec.tupleOriginSchemes, isSpecialScheme s = true ∧ s ≠ u!"file") s h

theorem originOK_of {k : Bool} {u : Rec} (hw : WF k (HostWF env) u) (hs : u.scheme ∈ Spec.tupleOriginSchemes) :
    OriginOK env ⟨u.scheme, u.host, u.port, none⟩ := by
  obtain ⟨hsp, hf⟩ := tuple_special hs
  obtain ⟨h1, h2⟩ := hw.auth.special hsp
  have h3 : u.host ≠ some (.str []) := fun e => hf (h2 e)
  refine ⟨hs, rfl, ⟨⟨hw.auth.scheme, ?_, ?_, hw.auth.port, hw.auth.host, hw.auth.special, hw.auth.null, ?_, ?_⟩, ?_, ?_, ?_, ?_⟩⟩
  · intro c hc; cases hc
  · intro c hc; cases hc
  · rintro (e | e | e)
    · exact absurd e h1
    · exact absurd e h3
    · exact absurd e hf
  · intro _ e; exact absurd e hf
  · refine ⟨⟨?_, ?_⟩, fun _ => (by simp), fun _ => (by simp)⟩
    · intro s hs
      rw [List.mem_singleton] at hs
      subst hs
      exact ⟨fun c hc => (by cases hc), by decide, by decide⟩
    · intro _ e; exact absurd e hf
  · intro q hq; cases hq
  · intro q hq; cases hq
  · intro s hs; cases hs

theorem originRec_text (a : Origin) (hh : a.host ≠ none) : (originRec a).serialize = a.toStr ++ u!"/" := by
  unfold Rec.serialize originRec Origin.toStr
  cases h : a.host with
  | none => exact absurd h hh
  | some x => cases hp : a.port <;> simp [serializePath, Rec.serializeCredentials, Rec.includesCredentials, Rec.serializePort, Rec.needsDot]

theorem path_isStr (hi : IdnaOK env) {o : URLObj} (h : Reached env o) : IsStr (serializePath o.url.path) := by
  have hs : Spec.IsScalarStr (serializePath o.url.path) := Props.path_scalar (reached_wf hi h)
  intro c hc
  have := (hs c hc).1
  omega

/-- what `URLRecord.origin` returns -/
theorem reached_origin (hi : IdnaOK env) {o : URLObj} (h : Reached env o) {a : Origin} (ha : o.url.origin env.quiet = .ok (some a)) :
    OriginOK env.quiet a := by
  by_cases hs : o.url.scheme ∈ Spec.tupleOriginSchemes
  · rw [C56_tuple _ _ hs] at ha
    cases ha
    exact originOK_of (reached_wf hi h) hs
  · by_cases hb : o.url.scheme = u!"blob"
    · obtain ⟨b1, b2, b3, b4⟩ := C56_blob env.quiet o.url hb _ rfl
      cases hr : (parseUrl env.quiet.quiet (serializePath o.url.path)).res with
      | error e =>
        cases he : e.isURLParseError with
        | true => rw [b3 e hr he] at ha; cases ha
        | false => rw [b4 e hr he] at ha; cases ha
      | ok p =>
        have hw : WF true (HostWF env.quiet) p :=
          (Parsed.alone (e := .utf8) (path_isStr hi h) trivial hr).wf (hostSpec_wf hi.quiet)
        by_cases hp : p.scheme = u!"http" ∨ p.scheme = u!"https"
        · rw [b1 p hr hp] at ha
          cases ha
          exact originOK_of hw (by rcases hp with hp | hp <;> rw [hp] <;> decide)
        · rw [b2 p hr (fun e => hp (.inl e)) (fun e => hp (.inr e))] at ha
          cases ha
    · rw [C56_opaque _ _ hs hb] at ha
      cases ha

theorem OriginOK.hosted {a : Origin} (h : OriginOK env a) : a.host ≠ none :=
  (h.wf.auth.special (tuple_special h.scheme).1).1

/-- two origins with the same text -/
theorem originText_inj (he : EnvOK env) (hi : IdnaOK env) {a b : Origin} (ha : OriginOK env a) (hb : OriginOK env b) :
    a.toStr = b.toStr ↔ a.scheme = b.scheme ∧ a.host.map Host.canon = b.host.map Host.canon ∧ a.port = b.port := by
  constructor
  · intro h
    have e : (originRec a).serialize = (originRec b).serialize := by
      rw [originRec_text a ha.hosted, originRec_text b hb.hosted, h]
    have h1 := basicParse_serialize (base := none) he hi ha.wf
    rw [e, basicParse_serialize he hi hb.wf] at h1
    injection h1 with h1
    refine ⟨?_, ?_, ?_⟩
    · exact (congrArg Rec.scheme h1).symm
    · exact (congrArg Rec.host h1).symm
    · exact (congrArg Rec.port h1).symm
  · rintro ⟨h1, h2, h3⟩
    unfold Origin.toStr
    rw [h1, h3]
    cases e1 : a.host with
    | none => exact absurd e1 ha.hosted
    | some x =>
      cases e2 : b.host with
      | none => exact absurd e2 hb.hosted
      | some y =>
        rw [e1, e2] at h2
        simp only [Option.map_some, Option.some.injEq] at h2
        dsimp only
        rw [← hostSerialize_canon x, h2, hostSerialize_canon]

/-- the text is read as the URL with the path "/" -/
theorem originText_parse (he : EnvOK env) (hi : IdnaOK env) {a : Origin} (ha : OriginOK env a) :
    (parseUrl env a.toStr).res = .ok (originRec a).canon := by
  have hstr : IsStr (originRec a).serialize := by
    rw [serialize_split]
    intro c hc
    rcases List.mem_append.1 hc with hc | hc
    · rcases List.mem_append.1 hc with hc | hc
      · have := ha.wf.beforePath_print c hc; omega
      · have := ha.wf.listPath_print rfl c hc; omega
    · have := ha.wf.afterPath_print c hc; omega
  have hb : (parseUrl env (originRec a).serialize).res = .ok (originRec a).canon := basicParse_serialize (base := none) he hi ha.wf
  have hw : WF true (HostWF env) (originRec a).canon := (Parsed.alone (e := .utf8) hstr trivial hb).wf (hostSpec_wf hi)
  have hd : Denotes env none (originRec a).canon.serialize (.ok (originRec a).canon) :=
    serialize_denotes hw rfl (by rw [serialize_canon]; exact hb)
  obtain ⟨hsp, hf⟩ := tuple_special ha.scheme
  have hroot : rootText (originRec a).canon = a.toStr := by
    have e1 := serialize_root (originRec a).canon
    rw [serialize_canon, originRec_text a ha.hosted] at e1
    have e2 : writtenPath (originRec a).canon ++ tailStr (originRec a).canon.query (originRec a).canon.fragment = u!"/" := by
      cases hh : a.host with
      | none => exact absurd hh ha.hosted
      | some x => simp [writtenPath, originRec, Rec.canon, Rec.needsDot, tailStr, serializePath, hh]
    rw [e2] at e1
    exact (List.append_cancel_right e1).symm
  have h := denotes_again hw hf hd rfl (path := []) (q := none) (f := none) ⟨fun c hc => (by cases hc), fun x hx => (by cases hx)⟩
    (fun c hc => (by cases hc)) (fun hn => absurd (by simpa [originRec, Rec.canon] using hn) ha.hosted)
  have et : rootText (originRec a).canon ++ tailText [] none none = a.toStr := by
    rw [hroot]
    simp [tailText]
  rw [et] at h
  have ht : Props.Trimmed a.toStr := by
    have hp : ∀ c ∈ a.toStr, 32 < c ∧ c ≤ 126 := by
      have e1 := originRec_text a ha.hosted
      rw [serialize_split] at e1
      intro c hc
      have : c ∈ (originRec a).beforePath ++ serializePath (originRec a).path ++ (originRec a).afterPathStr := by
        rw [e1]; simp [hc]
      rcases List.mem_append.1 this with hc | hc
      · rcases List.mem_append.1 hc with hc | hc
        · exact ha.wf.beforePath_print c hc
        · exact ha.wf.listPath_print rfl c hc
      · exact ha.wf.afterPath_print c hc
    have := Props.trimmed_front (a := a.toStr) (r := []) (by unfold Origin.toStr; simp) hp ⟨by decide, by decide, by decide⟩
    rwa [List.append_nil] at this
  have h2 := Props.denotes_sound h ht
  rw [show (parseUrl env a.toStr).res = _ from h2]
  congr 1
  have : Spec.pathOf (originRec a).canon.scheme [] = [[]] := by
    unfold Spec.pathOf
    rw [if_pos (by rw [show Spec.isSpecial (originRec a).canon.scheme = _ from isSpecial_rec (originRec a).canon]; exact hsp)]
  rw [this]
  rfl

end Urlstd
