/-
What a reference takes from its base, read off the rules of `Denotes`.
-/
import Verif.Spec.Depend
import Verif.Lemmas.Denote

namespace Urlstd

open Spec (Denotes FileText Relative Common RefersTo TwoSlashes NoPath NoQuery driveOf Slash NoSlash tailText TailOK SameAuthority isSpecial isOpaque)

variable {env : Env} {b b' : Rec}

theorem tail_noPath (q f : Option Str) : NoPath (tailText [] q f) := by
  intro c hc
  cases q with
  | some q => simp [tailText] at hc; exact .inl hc.symm
  | none =>
    cases f with
    | some f => simp [tailText] at hc; exact .inr hc.symm
    | none => simp [tailText] at hc

theorem tail_noQuery (f : Option Str) : NoQuery (tailText [] none f) := by
  intro c hc
  cases f with
  | some f => simp [tailText] at hc; exact hc.symm
  | none => simp [tailText] at hc

theorem noPath_noSlash {sp : Bool} {r : Str} (h : NoPath r) : NoSlash sp r := by
  intro c hc hs
  rcases h c hc with rfl | rfl <;> rcases hs with hs | ⟨-, hs⟩ <;> cases hs

theorem noSlash_not_two {sp : Bool} {r : Str} (h : NoSlash sp r) : ¬ TwoSlashes sp r := by
  rintro ⟨s1, s2, t, rfl, h1, -⟩
  exact h s1 rfl h1

theorem tail_noSlash {sp : Bool} {t : Str} {q f : Option Str} (hne : t ≠ []) (h : NoSlash sp t) : NoSlash sp (tailText t q f) := by
  intro c hc
  cases t with
  | nil => exact absurd rfl hne
  | cons d ds => exact h c (by simpa [tailText] using hc)

/-- a second slash would have to be in `t` -/
theorem rooted_not_two {sp : Bool} {s : Nat} {t : Str} {q f : Option Str} (h : NoSlash sp t) : ¬ TwoSlashes sp (s :: tailText t q f) := by
  rintro ⟨s1, s2, r, he, -, h2⟩
  injection he with _ he
  cases t with
  | nil =>
    have := tail_noPath q f s2 (by rw [he]; rfl)
    rcases this with rfl | rfl <;> rcases h2 with h2 | ⟨-, h2⟩ <;> cases h2
  | cons d ds =>
    have e : d = s2 := by simpa [tailText] using congrArg List.head? he
    exact h d rfl (e ▸ h2)

theorem relative_common (hf : b.scheme ≠ u!"file") (ho : isOpaque b = false) (hk : isOpaque b = isOpaque b') {r : Str} {x : Except Err Rec}
    (hc : Common b b' r) (hs : b.scheme = b'.scheme) (hr : Relative env b r x) : Relative env b' r x := by
  have hlist : ∀ p, b.path = .list p → ∃ p', b'.path = .list p' := by
    intro p hp
    cases hp' : b'.path with
    | list p' => exact ⟨p', rfl⟩
    | «opaque» t => unfold isOpaque at hk; rw [hp, hp'] at hk; cases hk
  cases hr with
  | same q f ok =>
    have hn := tail_noPath q f
    have hp := hc.path hn
    obtain ⟨a1, a2, a3, a4, a5⟩ := (hc.authority ho (noSlash_not_two (noPath_noSlash hn))).1 hf
    have e : ({ b with query := (q.map (Spec.queryEncode (isSpecial b.scheme))).or b.query, fragment := f.map Spec.fragmentEncode } : Rec) =
        { b' with query := (q.map (Spec.queryEncode (isSpecial b'.scheme))).or b'.query, fragment := f.map Spec.fragmentEncode } := by
      have hq : (q.map (Spec.queryEncode (isSpecial b.scheme))).or b.query = (q.map (Spec.queryEncode (isSpecial b'.scheme))).or b'.query := by
        cases q with
        | some q => rw [a1]; rfl
        | none => exact hc.query (tail_noQuery f)
      rw [Rec.mk.injEq]
      exact ⟨a1, a2, a3, a4, a5, hp, hq, rfl⟩
    rw [e]
    exact .same q f ok
  | path p t q f hp hne ht ok =>
    have hns := tail_noSlash (q := q) (f := f) hne ht
    obtain ⟨a1, a2, a3, a4, a5⟩ := (hc.authority ho (noSlash_not_two hns)).1 hf
    obtain ⟨p', hp'⟩ := hlist p hp
    have hd := hc.directory hns p p' hp hp'
    rw [show Spec.isFile b.scheme = false by simpa [Spec.isFile] using hf] at hd
    rw [hs] at ht
    have := Relative.path (env := env) (b := b') p' t q f hp' hne ht ok
    have e : ({ b with
        path := .list (Spec.follow false (Spec.parent false p) (Spec.segmentsOf (isSpecial b.scheme) t))
        query := q.map (Spec.queryEncode (isSpecial b.scheme))
        fragment := f.map Spec.fragmentEncode } : Rec) = { b' with
        path := .list (Spec.follow false (Spec.parent false p') (Spec.segmentsOf (isSpecial b'.scheme) t))
        query := q.map (Spec.queryEncode (isSpecial b'.scheme))
        fragment := f.map Spec.fragmentEncode } := by
      rw [Rec.mk.injEq, a1, hd]
      exact ⟨rfl, a2, a3, a4, a5, rfl, rfl, rfl⟩
    rw [e]
    exact this
  | rooted s t q f h1 ht ok =>
    obtain ⟨a1, a2, a3, a4, a5⟩ := (hc.authority ho (rooted_not_two ht)).1 hf
    rw [hs] at h1 ht
    have := Relative.rooted (env := env) (b := b') s t q f h1 ht ok
    have e : ({ b with
        path := .list (Spec.follow false [] (Spec.segmentsOf (isSpecial b.scheme) t))
        query := q.map (Spec.queryEncode (isSpecial b.scheme))
        fragment := f.map Spec.fragmentEncode } : Rec) = { b' with
        path := .list (Spec.follow false [] (Spec.segmentsOf (isSpecial b'.scheme) t))
        query := q.map (Spec.queryEncode (isSpecial b'.scheme))
        fragment := f.map Spec.fragmentEncode } := by
      rw [Rec.mk.injEq, a1]
      exact ⟨rfl, a2, a3, a4, a5, rfl, rfl, rfl⟩
    rw [e]
    exact this
  | authority s1 s2 sl p h1 h2 hsl ok =>
    rw [hs] at h1 h2 hsl ok ⊢
    exact .authority s1 s2 sl p h1 h2 hsl ok

theorem inheritedDrive_of (b : Rec) (t : Str) :
    Spec.inheritedDrive (some b) t = if Spec.DriveFirst t then [] else (driveOf b).toList := by
  unfold Spec.inheritedDrive driveOf
  dsimp only
  by_cases h1 : b.scheme = u!"file" <;> by_cases h2 : Spec.DriveFirst t <;>
    rcases b.path with t | (_ | ⟨p, ps⟩) <;> simp [h1, h2]
  split <;> rfl

theorem fileText_common (ho' : b.scheme = u!"file" → isOpaque b = false) (hk : isOpaque b = isOpaque b') {r : Str} {x : Except Err Rec} (hs : b.scheme = b'.scheme)
    (hc : b.scheme = u!"file" → Common b b' r) (hr : FileText env (some b) r x) : FileText env (some b') r x := by
  have hlist : ∀ p, b.path = .list p → ∃ p', b'.path = .list p' := by
    intro p hp
    cases hp' : b'.path with
    | list p' => exact ⟨p', rfl⟩
    | «opaque» t => unfold isOpaque at hk; rw [hp, hp'] at hk; cases hk
  have hspec : b.scheme = u!"file" → isSpecial b.scheme = true := by intro h; rw [h]; decide
  have hfile : b.scheme = u!"file" → Spec.isFile b.scheme = true := by intro h; rw [h]; decide
  cases hr with
  | noHost s1 s2 path q f h1 h2 hp ok => exact .noHost s1 s2 path q f h1 h2 hp ok
  | host s1 s2 host path q f v h1 h2 hne hh hd hv hp ok => exact .host s1 s2 host path q f v h1 h2 hne hh hd hv hp ok
  | badHost s1 s2 host path q f e h1 h2 hne hh hd hv hp ok => exact .badHost s1 s2 host path q f e h1 h2 hne hh hd hv hp ok
  | drive s1 s2 host path q f h1 h2 hd hp ok => exact .drive s1 s2 host path q f h1 h2 hd hp ok
  | rooted s t q f h1 ht ok =>
    have := FileText.rooted (env := env) (base := some b') s t q f h1 ht ok
    have e1 : Spec.inheritedHost (some b) = Spec.inheritedHost (some b') := by
      unfold Spec.inheritedHost
      dsimp only
      rw [← hs]
      by_cases hf : b.scheme = u!"file"
      · have ha := hc hf
        have ho := ho' hf
        have := ((ha.authority ho (by rw [hspec hf]; exact rooted_not_two ht)).2 hf).1
        rw [this]
      · rw [if_neg hf, if_neg hf]
    have e2 : Spec.inheritedDrive (some b) t = Spec.inheritedDrive (some b') t := by
      rw [inheritedDrive_of, inheritedDrive_of]
      by_cases hf : b.scheme = u!"file"
      · have ho := ho' hf
        rw [(((hc hf).authority ho (by rw [hspec hf]; exact rooted_not_two ht)).2 hf).2]
      · have : ∀ c : Rec, c.scheme ≠ u!"file" → driveOf c = none := by
          intro c hc
          unfold driveOf
          split
          · rw [if_neg (fun h => hc h.1)]
          · rfl
        rw [this b hf, this b' (by rw [← hs]; exact hf)]
    rw [e1, e2]
    exact this
  | plain t q f hb ht ok =>
    refine .plain t q f ?_ ht ok
    rintro c ⟨⟩
    rw [← hs]
    exact hb b rfl
  | path c p t q f hbase hb hp hne ht ok =>
    cases hbase
    obtain ⟨p', hp'⟩ := hlist p hp
    have hc := hc hb
    have ho := ho' hb
    have hns := tail_noSlash (q := q) (f := f) hne ht
    have e1 := ((hc.authority ho (by rw [hspec hb]; exact noSlash_not_two hns)).2 hb).1
    have e2 := hc.directory (by rw [hspec hb]; exact hns) p p' hp hp'
    rw [hfile hb] at e2
    rw [e1, e2]
    exact .path b' p' t q f rfl (by rw [← hs]; exact hb) hp' hne ht ok
  | same c q f hbase hb hne ok =>
    cases hbase
    have hc := hc hb
    have ho := ho' hb
    have hn := tail_noPath q f
    have e1 := ((hc.authority ho (noSlash_not_two (noPath_noSlash hn))).2 hb).1
    have e2 := hc.path hn
    have hq : (q.map (Spec.queryEncode true)).or b.query = (q.map (Spec.queryEncode true)).or b'.query := by
      cases q with
      | some q => rfl
      | none => exact hc.query (tail_noQuery f)
    rw [e1, e2, hq]
    exact .same b' q f rfl (by rw [← hs]; exact hb) hne ok
  | empty c p hbase hb hp =>
    cases hbase
    have hc := hc hb
    have ho := ho' hb
    have hn : NoPath [] := fun c hc => by cases hc
    have e1 := ((hc.authority ho (noSlash_not_two (noPath_noSlash hn))).2 hb).1
    have e2 := hc.path hn
    have e3 := hc.query (fun c hc => by cases hc)
    rw [e1, e3]
    exact .empty b' p rfl (by rw [← hs]; exact hb) (by rw [← e2]; exact hp)

theorem denotes_common (ho : isSpecial b.scheme = true → isOpaque b = false) (hk : isOpaque b = isOpaque b') {t : Str} {x : Except Err Rec} (hs : b.scheme = b'.scheme)
    (hc : ∀ r, RefersTo b t r → Common b b' r) (hr : Denotes env (some b) t x) : Denotes env (some b') t x := by
  have hlist : ∀ p, b.path = .list p → ∃ p', b'.path = .list p' := by
    intro p hp
    cases hp' : b'.path with
    | list p' => exact ⟨p', rfl⟩
    | «opaque» t => unfold isOpaque at hk; rw [hp, hp'] at hk; cases hk
  have hopaque : ∀ p, b.path = .opaque p → ∃ p', b'.path = .opaque p' := by
    intro p hp
    cases hp' : b'.path with
    | «opaque» t => exact ⟨t, rfl⟩
    | list p' => unfold isOpaque at hk; rw [hp, hp'] at hk; cases hk
  cases hr with
  | file sc r x hsc hf h =>
    refine .file sc r x hsc hf (fileText_common (fun h => ho (by rw [h]; decide)) hk hs (fun hb => hc r (.inr ⟨?_, sc, hsc, hf.trans hb.symm, rfl⟩)) h)
    rw [hb]; decide
  | special sc sl p hsc hsp hf hb hsl ok =>
    refine .special sc sl p hsc hsp hf ?_ hsl ok
    rintro c ⟨⟩
    rw [← hs]
    exact hb b rfl
  | specialSlashes sc sl p hsc hsp hf hsl ok => exact .specialSlashes sc sl p hsc hsp hf hsl ok
  | sameScheme sc r c x hsc hsp hf hbase hb h2 h =>
    cases hbase
    refine .sameScheme sc r b' x hsc hsp hf rfl (by rw [← hs]; exact hb) h2 ?_
    exact relative_common (by rw [hb]; exact hf) (ho (by rw [hb]; exact hsp)) hk (hc r (.inr ⟨by rw [hb]; exact hsp, sc, hsc, hb.symm, rfl⟩)) hs h
  | authority sc p hsc hsp ok => exact .authority sc p hsc hsp ok
  | rooted sc t q f hsc hsp ht ok => exact .rooted sc t q f hsc hsp ht ok
  | «opaque» sc t q f hsc hsp ht ok => exact .opaque sc t q f hsc hsp ht ok
  | noBase r h1 h2 => cases h2
  | opaqueFragment f c p hbase hp =>
    cases hbase
    obtain ⟨p', hp'⟩ := hopaque p hp
    have hns : ¬ Spec.HasScheme (u!"#" ++ f) := by
      rintro ⟨sc, rest, ⟨c, cs, rfl, hl, -⟩, he⟩
      simp only [List.cons_append] at he
      injection he with he _
      subst he
      exact absurd hl (by decide)
    have hc := hc _ (.inl ⟨hns, rfl⟩)
    have hq : NoQuery (u!"#" ++ f) := by intro c hc; simpa using hc.symm
    have hn : NoPath (u!"#" ++ f) := fun c hc => .inr (hq c hc)
    rw [hs, hc.path hn, hc.query hq]
    exact .opaqueFragment f b' p' rfl hp'
  | opaqueOther r c p h1 hbase hp hh =>
    cases hbase
    obtain ⟨p', hp'⟩ := hopaque p hp
    exact .opaqueOther _ b' p' h1 rfl hp' hh
  | fileBase r c p x h1 hbase hp hf h =>
    cases hbase
    obtain ⟨p', hp'⟩ := hlist p hp
    exact .fileBase _ b' p' x h1 rfl hp' (by rw [← hs]; exact hf) (fileText_common (fun h => ho (by rw [h]; decide)) hk hs (fun _ => hc _ (.inl ⟨h1, rfl⟩)) h)
  | reference r c p x h1 hbase hp hf h =>
    cases hbase
    obtain ⟨p', hp'⟩ := hlist p hp
    exact .reference _ b' p' x h1 rfl hp' (by rw [← hs]; exact hf) (relative_common hf (by unfold isOpaque; rw [hp]) hk (hc _ (.inl ⟨h1, rfl⟩)) hs h)

theorem fileText_noFile (hf : b.scheme ≠ u!"file") {r : Str} {x : Except Err Rec} (hr : FileText env (some b) r x) :
    FileText env none r x := by
  cases hr with
  | noHost s1 s2 path q f h1 h2 hp ok => exact .noHost s1 s2 path q f h1 h2 hp ok
  | host s1 s2 host path q f v h1 h2 hne hh hd hv hp ok => exact .host s1 s2 host path q f v h1 h2 hne hh hd hv hp ok
  | badHost s1 s2 host path q f e h1 h2 hne hh hd hv hp ok => exact .badHost s1 s2 host path q f e h1 h2 hne hh hd hv hp ok
  | drive s1 s2 host path q f h1 h2 hd hp ok => exact .drive s1 s2 host path q f h1 h2 hd hp ok
  | rooted s t q f h1 ht ok =>
    have := FileText.rooted (env := env) (base := none) s t q f h1 ht ok
    have e1 : Spec.inheritedHost (some b) = Spec.inheritedHost none := by
      unfold Spec.inheritedHost
      dsimp only
      rw [if_neg hf]
    have e2 : Spec.inheritedDrive (some b) t = Spec.inheritedDrive none t := by
      rw [inheritedDrive_of]
      have : driveOf b = none := by
        unfold driveOf
        split
        · rw [if_neg (fun h => hf h.1)]
        · rfl
      rw [this]
      split <;> rfl
    rw [e1, e2]
    exact this
  | plain t q f hb ht ok => exact .plain t q f (by intro b h; cases h) ht ok
  | path c p t q f hbase hb hp hne ht ok => cases hbase; exact absurd hb hf
  | same c q f hbase hb hne ok => cases hbase; exact absurd hb hf
  | empty c p hbase hb hp => cases hbase; exact absurd hb hf

/-- a text with a scheme that is not the special scheme of the base -/
theorem denotes_absolute {t : Str} {x : Except Err Rec} (h : ∀ r, ¬ RefersTo b t r) (hr : Denotes env (some b) t x) :
    Denotes env none t x := by
  cases hr with
  | file sc r x hsc hf hx =>
    refine .file sc r x hsc hf (fileText_noFile (fun hb => ?_) hx)
    exact h r (.inr ⟨by rw [hb]; decide, sc, hsc, hf.trans hb.symm, rfl⟩)
  | special sc sl p hsc hsp hf hb hsl ok => exact .special sc sl p hsc hsp hf (by intro b h; cases h) hsl ok
  | specialSlashes sc sl p hsc hsp hf hsl ok => exact .specialSlashes sc sl p hsc hsp hf hsl ok
  | sameScheme sc r c x hsc hsp hf hbase hb h2 hx =>
    cases hbase
    exact absurd (.inr ⟨by rw [hb]; exact hsp, sc, hsc, hb.symm, rfl⟩) (h r)
  | authority sc p hsc hsp ok => exact .authority sc p hsc hsp ok
  | rooted sc t q f hsc hsp ht ok => exact .rooted sc t q f hsc hsp ht ok
  | «opaque» sc t q f hsc hsp ht ok => exact .opaque sc t q f hsc hsp ht ok
  | noBase r h1 h2 => cases h2
  | opaqueFragment f c p hbase hp =>
    refine absurd (.inl ⟨?_, rfl⟩) (h _)
    rintro ⟨sc, rest, ⟨c, cs, rfl, hl, -⟩, he⟩
    simp only [List.cons_append] at he
    injection he with he _
    subst he
    exact absurd hl (by decide)
  | opaqueOther r c p h1 hbase hp hh => exact absurd (.inl ⟨h1, rfl⟩) (h _)
  | fileBase r c p x h1 hbase hp hf hx => exact absurd (.inl ⟨h1, rfl⟩) (h _)
  | reference r c p x h1 hbase hp hf hx => exact absurd (.inl ⟨h1, rfl⟩) (h _)

end Urlstd
