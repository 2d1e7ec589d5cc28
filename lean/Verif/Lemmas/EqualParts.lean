/-
The serialization of a well-formed record, deviant or not, determines the record up to the upper bits of an IPv4 host.
-/
import Verif.Lemmas.Generic
import Verif.Lemmas.History

namespace Urlstd

open Spec.Rfc

variable {env : Env}

/-- a record without port, under another scheme of the same kind that is not "file" -/
def Rec.plainAs (u : Rec) (sc : Str) (g : Host) : Rec := { u with scheme := sc, host := some g, port := none }

theorem plainAs_wf {u : Rec} {h : Host} (hw : WF false (HostWF env) u) (hh : u.host = some h) {sc : Str} {g : Host} (hsc : SchemeOK sc)
    (hs : isSpecialScheme sc = isSpecialScheme u.scheme) (hf : sc ≠ u!"file") (hg : HostWF env (!isSpecialScheme u.scheme) g)
    (h0 : g = .str [] → isSpecialScheme u.scheme = false ∧ h = .str []) : WF true (HostWF env) (u.plainAs sc g) := by
  have hsp : (u.plainAs sc g).isSpecial = u.isSpecial := hs
  refine ⟨⟨hsc, hw.auth.user, hw.auth.pass, ?_, ?_, ?_, fun _ => rfl, ?_, fun _ e => absurd e hf⟩, ?_, ?_, hw.frag, hw.tail⟩
  · intro p hp
    cases hp
  · intro x hx
    cases hx
    rw [hsp]
    exact hg
  · rw [hsp]
    intro k
    refine ⟨(by intro e; cases e), ?_⟩
    intro e
    cases e
    have := (h0 rfl).1
    unfold Rec.isSpecial at k
    rw [this] at k
    cases k
  · rintro (e | e | e)
    · cases e
    · cases e
      obtain ⟨a, b⟩ := h0 rfl
      have := hw.auth.loose (.inr (.inl (by rw [hh, b])))
      exact ⟨this.1, this.2.1, .inl rfl⟩
    · exact absurd e hf
  · have hp := hw.path
    unfold PathWF at hp ⊢
    show match u.path with
      | .list p => _
      | .opaque s => _
    cases hu : u.path with
    | list p =>
      rw [hu] at hp
      refine ⟨⟨?_, fun _ e => absurd e hf⟩, ?_, ?_⟩
      · show ∀ s ∈ p, SegOK (isSpecialScheme sc) s
        rw [hs]
        exact hp.1.segs
      · rw [hsp]
        exact hp.2.1
      · intro e
        cases e
    | «opaque» s =>
      rw [hu] at hp
      exact absurd (hh.symm.trans hp.2) (by intro e; cases e)
  · intro q hq
    rw [hsp]
    exact hw.query q hq

private theorem written_some {u : Rec} {h : Host} (hh : u.host = some h) : writtenPath u = serializePath u.path := by
  unfold writtenPath Rec.needsDot
  rw [hh]
  rfl

private theorem plainAs_serialize {u v : Rec} {sc : Str} {g g' : Host} (h1 : u.username = v.username) (h2 : u.password = v.password)
    (h3 : hostSerialize g = hostSerialize g') (h4 : serializePath u.path = serializePath v.path) (h5 : u.query = v.query)
    (h6 : u.fragment = v.fragment) : (u.plainAs sc g).serialize = (v.plainAs sc g').serialize := by
  unfold Rec.serialize Rec.plainAs Rec.serializeCredentials Rec.includesCredentials Rec.serializePort Rec.needsDot
  dsimp only [Option.isNone_some, Bool.false_and]
  rw [h1, h2, h3, h4, h5, h6]
  rfl

theorem serialize_determines (he : EnvOK env) (hi : IdnaOK env) {u v : Rec} (hw : WF false (HostWF env) u) (hw' : WF false (HostWF env) v)
    (heq : u.serialize = v.serialize) : u.canon = v.canon := by
  have inj : ∀ {a b : Rec}, WF true (HostWF env) a → WF true (HostWF env) b → a.serialize = b.serialize → a.canon = b.canon := by
    intro a b ha hb e
    have h1 := basicParse_serialize (base := none) (env := env) he hi ha
    have h2 := basicParse_serialize (base := none) (env := env) he hi hb
    rw [e, h2] at h1
    exact (Except.ok.inj h1).symm
  have e : split u.serialize = _ := split_serialize hw
  have e' : split v.serialize = _ := split_serialize hw'
  rw [heq, e'] at e
  simp only [Split.mk.injEq, Option.some.injEq] at e
  obtain ⟨h1, h2, h3, h4, h5⟩ := e
  cases hh : u.host with
  | none =>
    have hh' : v.host = none := by
      cases hc : v.host with
      | none => rfl
      | some x => rw [hh, hc] at h2; cases h2
    have strict : ∀ {w : Rec}, WF false (HostWF env) w → w.host = none → WF true (HostWF env) w := by
      intro w hww hn
      refine hww.strict ?_
      rintro (⟨a, -⟩ | ⟨a, -⟩)
      · rw [hww.auth.null hn] at a
        cases a
      · exact (hww.auth.special (by unfold Rec.isSpecial; rw [a]; decide)).1 hn
    exact inj (strict hw hh) (strict hw' hh') heq
  | some h =>
    cases hh' : v.host with
    | none => rw [hh, hh'] at h2; cases h2
    | some h' =>
      rw [hh, hh'] at h2
      have ha : authText v h' = authText u h := Option.some.inj h2
      have r := authority_read hw hh
      rw [← ha, authority_read hw' hh'] at r
      simp only [Authority.mk.injEq] at r
      obtain ⟨r1, r2, r3, r4⟩ := r
      have hpw : u.password = v.password := by
        split at r2 <;> split at r2
        · next a b => rw [a, b]
        · cases r2
        · cases r2
        · exact (Option.some.inj r2).symm
      have hus : u.username = v.username := by
        split at r1 <;> split at r1
        · next a b => rw [a.1, b.1]
        · cases r1
        · cases r1
        · exact (Option.some.inj r1).symm
      have hport : u.port = v.port := by
        cases hp : u.port <;> cases hp' : v.port <;> rw [hp, hp'] at r4
        · cases r4
        · cases r4
        · exact congrArg some (natDec_injective (Option.some.inj r4)).symm
      have hpath : serializePath u.path = serializePath v.path := by
        rw [written_some hh, written_some hh'] at h3
        exact h3.symm
      have fin : ∀ sc g g', WF true (HostWF env) (u.plainAs sc g) → WF true (HostWF env) (v.plainAs sc g') →
          hostSerialize g = hostSerialize g' → (g.canon = g'.canon → h.canon = h'.canon) → u.canon = v.canon := by
        intro sc g g' a b hg hgh
        have k := inj a b (plainAs_serialize hus hpw hg hpath h4.symm h5.symm)
        have kp : u.path = v.path := (congrArg Rec.path k :)
        have kh : some g.canon = some g'.canon := (congrArg Rec.host k :)
        have kh := hgh (Option.some.inj kh)
        cases u
        cases v
        dsimp only at *
        subst hh hh' hus hpw hport kp h1 h4 h5
        unfold Rec.canon
        dsimp only [Option.map_some]
        rw [kh]
      have hhost := hw.auth.host h hh
      have hhost' := hw'.auth.host h' hh'
      unfold Rec.isSpecial at hhost hhost'
      cases hsp : isSpecialScheme u.scheme with
      | false =>
        have hsp' : isSpecialScheme v.scheme = false := by rw [h1, hsp]
        have hf : u.scheme ≠ u!"file" := by
          intro hf
          rw [hf] at hsp
          exact absurd hsp (by decide)
        refine fin u.scheme h h' (plainAs_wf hw hh hw.auth.scheme rfl hf hhost fun h0 => ⟨hsp, h0⟩)
          (plainAs_wf hw' hh' hw.auth.scheme (by rw [h1]) hf hhost' fun h0 => ⟨hsp', h0⟩) r3.symm id
      | true =>
        have hsp' : isSpecialScheme v.scheme = true := by rw [h1, hsp]
        have hsc : SchemeOK u!"http" := ⟨c!"h", u!"ttp", rfl, by decide, by decide⟩
        by_cases h0 : h = .str []
        · have h0' : h' = .str [] := by
            apply hostSerialize_nil
            rw [r3, h0]
            rfl
          have hz : HostWF env (!isSpecialScheme u.scheme) (.ipv4 0) := by
            rw [hsp]
            rfl
          have hz' : HostWF env (!isSpecialScheme v.scheme) (.ipv4 0) := by
            rw [hsp']
            rfl
          exact fin u!"http" (.ipv4 0) (.ipv4 0) (plainAs_wf hw hh hsc (by rw [hsp]; decide) (by decide) hz (by intro e; cases e))
            (plainAs_wf hw' hh' hsc (by rw [hsp']; decide) (by decide) hz' (by intro e; cases e)) rfl (fun _ => by rw [h0, h0'])
        · have h0' : h' ≠ .str [] := by
            intro e
            apply h0
            apply hostSerialize_nil
            rw [← r3, e]
            rfl
          exact fin u!"http" h h' (plainAs_wf hw hh hsc (by rw [hsp]; decide) (by decide) hhost (fun e => absurd e h0))
            (plainAs_wf hw' hh' hsc (by rw [hsp']; decide) (by decide) hhost' (fun e => absurd e h0')) r3.symm id

end Urlstd
