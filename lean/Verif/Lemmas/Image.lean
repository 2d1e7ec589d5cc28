/-
Lemmas for C113: the well-formed records are those of `Spec.IsURL`.
-/
import Verif.Lemmas.History
import Verif.Lemmas.Machine1
import Verif.Spec.Image

namespace Urlstd

variable {env : Env}

theorem safeC0_set (c : Nat) : safeC0 c = true ↔ Spec.c0Set c = false := by
  simp [safeC0, Spec.c0Set]
  omega

theorem safeFragment_set (c : Nat) : safeFragment c = true ↔ Spec.fragmentSet c = false := by
  unfold safeFragment Spec.fragmentSet
  rw [Bool.and_eq_true, safeC0_set, Bool.or_eq_false_iff, Bool.not_eq_true']

theorem safeQuery_set (c : Nat) : safeQuery c = true ↔ Spec.querySet c = false := by
  unfold safeQuery Spec.querySet
  rw [Bool.and_eq_true, safeC0_set, Bool.or_eq_false_iff, Bool.not_eq_true']

theorem safePath_set (c : Nat) : safePath c = true ↔ Spec.pathSet c = false := by
  unfold safePath Spec.pathSet
  rw [Bool.and_eq_true, safeQuery_set, Bool.or_eq_false_iff, Bool.not_eq_true']

theorem safeUserinfo_set (c : Nat) : safeUserinfo c = true ↔ Spec.userinfoSet c = false := by
  unfold safeUserinfo Spec.userinfoSet
  rw [Bool.and_eq_true, safePath_set, Bool.or_eq_false_iff, Bool.or_eq_false_iff, Bool.or_eq_false_iff]
  simp
  constructor
  · rintro ⟨h, k⟩
    exact ⟨⟨⟨h, by omega⟩, by omega⟩, by omega⟩
  · rintro ⟨⟨⟨h, k⟩, l⟩, m⟩
    exact ⟨h, by omega⟩

theorem querySafe_set (sp : Bool) (c : Nat) :
    querySafe sp c = true ↔ (if sp then Spec.specialQuerySet c else Spec.querySet c) = false := by
  unfold querySafe
  cases sp with
  | false => exact safeQuery_set c
  | true =>
    show safeSpecialQuery c = true ↔ Spec.specialQuerySet c = false
    unfold safeSpecialQuery Spec.specialQuerySet
    rw [Bool.and_eq_true, safeQuery_set, Bool.or_eq_false_iff]
    simp

theorem schemeOK_of {s : Str} (h : Spec.NormScheme s) : SchemeOK s := by
  obtain ⟨c, cs, rfl, hc, hcs⟩ := h
  refine ⟨c, cs, rfl, hc, fun x hx => ?_⟩
  have := hcs x hx
  simp only [isSchemeChar, isAlnum, isAlpha, isDigit, List.contains_eq_mem, List.mem_cons, List.not_mem_nil, or_false,
    Bool.or_eq_true, Bool.and_eq_true, decide_eq_true_eq]
  unfold Spec.LowerAlpha Spec.Digit at this
  omega

theorem single_spec {s : Str} (h : isSingleDot s = true) : Spec.DotSegment s := by
  unfold isSingleDot at h
  simp only [List.contains_eq_mem, List.mem_cons, List.not_mem_nil, or_false, decide_eq_true_eq] at h
  rcases h with rfl | rfl | rfl <;> exact .inl (by decide)

theorem double_spec {s : Str} (h : isDoubleDot s = true) : Spec.DotSegment s := by
  unfold isDoubleDot at h
  simp only [List.contains_eq_mem, List.mem_cons, List.not_mem_nil, or_false, decide_eq_true_eq] at h
  rcases h with rfl | rfl | rfl | rfl | rfl | rfl | rfl | rfl | rfl <;> exact .inr (by decide)

theorem parts_of_wf {k : Bool} (he : EnvOK env) (hi : IdnaOK env) {u : Rec} (h : WF k (HostWF env) u) (hc : u.canon = u) : Spec.WellMade env u where
  scheme := h.auth.scheme.spec
  username c hc := (safeUserinfo_set c).1 (h.auth.user c hc)
  password c hc := (safeUserinfo_set c).1 (h.auth.pass c hc)
  host x hx := by
    have hw := h.auth.host x hx
    have hcan : x.canon = x := by
      have := congrArg Rec.host hc
      unfold Rec.canon at this
      dsimp only at this
      rw [hx] at this
      exact Option.some.inj this
    have hp := hostParse_serialize he hi hw
    rw [hcan] at hp
    refine ⟨?_, by rw [isSpecial_eq]; exact hp⟩
    intro c hc
    have := hw.print c hc
    omega
  port := h.portOK
  special := h.specialHasHost
  segments l hl := by
    have hp := h.path
    unfold PathWF at hp
    rw [hl] at hp
    refine ⟨hp.2.2, fun s hs => ?_⟩
    have hseg := hp.1.segs s hs
    refine ⟨fun hd => ?_, fun c hc => ?_⟩
    · rcases dotSegment_of_spec hd with k | k
      · rw [hseg.single] at k; cases k
      · rw [hseg.double] at k; cases k
    · obtain ⟨a, b⟩ := hseg.chars c hc
      unfold isPathSep at b
      rw [isSpecial_eq]
      simp only [Bool.or_eq_false_iff, decide_eq_false_iff_not, Bool.and_eq_false_iff] at b
      refine ⟨(safePath_set c).1 a, b.1, fun k => ?_⟩
      rcases b.2 with e | e
      · rw [k] at e; cases e
      · exact e
  opaquePath s hs := by
    have hp := h.path
    unfold PathWF at hp
    rw [hs] at hp
    refine ⟨hp.2, hp.1.head, fun c hc => ?_, fun hq hf => h.tail s hs hq hf⟩
    obtain ⟨a, b⟩ := hp.1.chars c hc
    unfold notQF at b
    simp at b
    exact ⟨(safeC0_set c).1 a, b⟩
  query q hq c hc := by
    rw [isSpecial_eq]
    exact (querySafe_set _ c).1 (h.query q hq c hc)
  fragment f hf c hc := (safeFragment_set c).1 (h.frag f hf c hc)

theorem isURL_of_wf (he : EnvOK env) (hi : IdnaOK env) {u : Rec} (h : WF true (HostWF env) u) (hc : u.canon = u) : Spec.IsURL env u where
  toWellMade := parts_of_wf he hi h hc
  bare := h.auth.bare
  localhost := h.auth.file rfl
  drive hf c l hc hl := by
    have hp := h.path
    unfold PathWF at hp
    rw [hl] at hp
    have hw : isWindowsDriveLetter [c, c!"|"] = true := by
      simp [isWindowsDriveLetter, isAlpha]
      omega
    have := hp.1.drive rfl hf _ rfl hw
    simp [isNormalizedWindowsDriveLetter] at this

theorem wf_of_parts (hi : IdnaOK env) {u : Rec} (h : Spec.WellMade env u) (hb : Spec.NearlyBare u) : WF false (HostWF env) u := by
  refine ⟨⟨schemeOK_of h.scheme, fun c hc => (safeUserinfo_set c).2 (h.username c hc), fun c hc => (safeUserinfo_set c).2 (h.password c hc),
    ?_, ?_, ?_, hb.2, ?_, fun k => by cases k⟩, ?_, ?_, fun f hf c hc => (safeFragment_set c).2 (h.fragment f hf c hc), ?_⟩
  · intro p hp
    obtain ⟨a, b⟩ := h.port p hp
    refine ⟨a, ?_⟩
    cases hd : isDefaultPort u.scheme p with
    | false => rfl
    | true => exact absurd (default_mem hd) b
  · intro x hx
    obtain ⟨a, b⟩ := h.host x hx
    rw [isSpecial_eq] at b
    exact hostSpec_wf hi _ _ _ a b
  · intro hsp
    obtain ⟨⟨x, hx, h0⟩, -⟩ := h.special ((special_iff _).1 hsp)
    rw [hx]
    exact ⟨(by intro e; cases e), fun e => h0 (Option.some.inj e)⟩
  · intro k
    have := hb.1 k
    exact ⟨this.1, this.2.1, this.2.2.imp id fun e => ⟨rfl, e⟩⟩
  · unfold PathWF
    cases hp : u.path with
    | list l =>
      obtain ⟨a, b⟩ := h.segments l hp
      refine ⟨⟨fun s hs => ?_, ?_⟩, ?_, a⟩
      · obtain ⟨k1, k2⟩ := b s hs
        refine ⟨fun c hc => ?_, ?_, ?_⟩
        · obtain ⟨m1, m2, m3⟩ := k2 c hc
          refine ⟨(safePath_set c).2 m1, ?_⟩
          rw [isSpecial_eq] at m3
          unfold isPathSep
          simp only [Bool.or_eq_false_iff, decide_eq_false_iff_not, Bool.and_eq_false_iff]
          refine ⟨m2, ?_⟩
          cases hsp : isSpecialScheme u.scheme with
          | false => exact .inl rfl
          | true => exact .inr (m3 hsp)
        · cases hd : isSingleDot s with
          | false => rfl
          | true => exact absurd (single_spec hd) k1
        · cases hd : isDoubleDot s with
          | false => rfl
          | true => exact absurd (double_spec hd) k1
      · intro k
        cases k
      · intro hsp
        obtain ⟨-, m, hm, hne⟩ := h.special ((special_iff _).1 hsp)
        rw [hp] at hm
        cases hm
        exact hne
    | «opaque» s =>
      obtain ⟨a, b, c, -⟩ := h.opaquePath s hp
      refine ⟨⟨fun x hx => ?_, b⟩, a⟩
      obtain ⟨m1, m2, m3⟩ := c x hx
      exact ⟨(safeC0_set x).2 m1, by simp [notQF, m2, m3]⟩
  · intro q hq c hc
    have := h.query q hq c hc
    rw [isSpecial_eq] at this
    exact (querySafe_set _ c).2 this
  · intro s hs hq hf
    exact (h.opaquePath s hs).2.2.2 hq hf

theorem wf_of_isURL (hi : IdnaOK env) {u : Rec} (h : Spec.IsURL env u) : WF true (HostWF env) u := by
  refine (wf_of_parts hi h.toWellMade ⟨fun k => ?_, fun k => (h.bare (.inl k)).2.2⟩).strict ?_
  · have := h.bare k
    exact ⟨this.1, this.2.1, .inl this.2.2⟩
  · rintro (⟨a, b⟩ | ⟨a, b | ⟨c, l, hc, hl⟩⟩)
    · have := (h.bare (.inr b)).2.2
      rw [a] at this
      cases this
    · exact h.localhost a b
    · exact h.drive a c l hc hl

theorem canon_of_parts (he : EnvOK env) (hi : IdnaOK env) {u : Rec} (h : Spec.WellMade env u) (hb : Spec.NearlyBare u) : u.canon = u := by
  have hw := wf_of_parts hi h hb
  cases hh : u.host with
  | none => cases u; unfold Rec.canon; dsimp only at hh ⊢; rw [hh]; rfl
  | some x =>
    have h1 := hostParse_serialize he hi (hw.auth.host x hh)
    have h2 := (h.host x hh).2
    rw [isSpecial_eq] at h2
    have : x.canon = x := Except.ok.inj (h1.symm.trans h2)
    cases u
    unfold Rec.canon
    dsimp only at hh ⊢
    rw [hh, Option.map_some, this]

theorem canon_of_isURL (he : EnvOK env) (hi : IdnaOK env) {u : Rec} (h : Spec.IsURL env u) : u.canon = u := by
  refine canon_of_parts he hi h.toWellMade ⟨fun k => ?_, fun k => (h.bare (.inl k)).2.2⟩
  have := h.bare k
  exact ⟨this.1, this.2.1, .inl this.2.2⟩

theorem moved_wf {u : Rec} {h : Host} (hw : WF false (HostWF env) u) (hh : u.host = some h) {sc : Str} {g : Host} (hsc : SchemeOK sc)
    (hs : isSpecialScheme sc = isSpecialScheme u.scheme) (hf : sc ≠ u!"file") (hg : HostWF env (!isSpecialScheme u.scheme) g)
    (h0 : g ≠ .str []) (hp : ∀ p, u.port = some p → isDefaultPort sc p = false) :
    WF true (HostWF env) { u with scheme := sc, host := some g } := by
  have hsp : ({ u with scheme := sc, host := some g } : Rec).isSpecial = u.isSpecial := hs
  refine ⟨⟨hsc, hw.auth.user, hw.auth.pass, fun p k => ⟨(hw.auth.port p k).1, hp p k⟩, ?_, ?_, ?_, ?_, fun _ e => absurd e hf⟩, ?_, ?_,
    hw.frag, hw.tail⟩
  · intro x hx
    cases hx
    rw [hsp]
    exact hg
  · intro _
    exact ⟨(by intro e; cases e), fun e => absurd (Option.some.inj e) h0⟩
  · intro e
    cases e
  · rintro (e | e | e)
    · cases e
    · exact absurd (Option.some.inj e) h0
    · exact absurd e hf
  · have hp := hw.path
    unfold PathWF at hp ⊢
    show match u.path with
      | .list p => _
      | .opaque s => _
    cases hu : u.path with
    | list p =>
      rw [hu] at hp
      refine ⟨⟨?_, fun _ e => absurd e hf⟩, ?_, ?_⟩
      · show ∀ s ∈ p, SegOK (isSpecialScheme sc) s
        rw [hs]
        exact hp.1.segs
      · show isSpecialScheme sc = true → p ≠ []
        rw [hs]
        exact hp.2.1
      · intro e
        cases e
    | «opaque» s =>
      rw [hu] at hp
      exact absurd (hh.symm.trans hp.2) (by intro e; cases e)
  · intro q hq
    rw [hsp]
    exact hw.query q hq

end Urlstd
