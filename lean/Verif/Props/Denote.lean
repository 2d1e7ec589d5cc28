/-
Property C83: the rules of `Spec/Denote.lean` are what the parser computes, for every input and every base.
-/
import Verif.Lemmas.Denote

namespace Urlstd.Props

open Spec (IsStr Denotes Relative tailText TailOK)

/-- C83. The rules say for every text and every base, in exactly one way, what the text denotes, and this is what the parser gives. -/
theorem C83_denotes (env : Env) (s : Str) (base : Option Rec) (hs : IsStr s) (hb : Spec.GoodBase base) (x : Except Err Rec) :
    (parseUrl env s (baseArg base)).res = x ↔ Denotes env base (Spec.dropTabs (Spec.stripC0 s)) x := by
  have key : (parseUrl env s (baseArg base)).res = (parseUrl env (prepared s none) (baseArg base)).res := by
    rw [parse_baseArg_res, parse_baseArg_res, basicParse_toExcept, basicParse_toExcept, trimmed_prepared (prepared_trimmed hs)]
  rw [prepared_std, key]
  constructor
  · intro h
    obtain ⟨y, hy⟩ := denotes_total env hb (prepared s none)
    rw [denotes_sound hy (prepared_trimmed hs)] at h
    rwa [← h]
  · exact fun h => denotes_sound h (prepared_trimmed hs)

-- a relative path, with a newline in it and spaces around
example : (parseUrl exEnv u!" ./../c d/../e?x\ny " (baseArg (some exRecord))).res =
    .ok { exRecord with path := .list [u!"e"], query := some u!"xy", fragment := none } := by
  rw [C83_denotes exEnv _ _ (by decide) (by intro b h _; cases h; exact ⟨_, rfl⟩)]
  refine .reference _ exRecord _ _ ?_ rfl rfl (by decide) ?_
  · rintro ⟨sc, rest, ⟨c, cs, rfl, hc, -⟩, h⟩
    simp only [List.cons_append] at h
    injection h with h _
    subst h
    exact absurd hc (by decide)
  · have := Relative.path (env := exEnv) (b := exRecord) _ u!"./../c d/../e" (some u!"xy") none rfl (by decide) (by decide)
      ⟨by decide, by decide⟩
    exact this

/-- C83. The rules are consistent and complete: every text without tabs, newlines and surrounding spaces and controls falls under
rules for one result, and one only. -/
theorem C83_unique (env : Env) (s : Str) (base : Option Rec) (hs : IsStr s) (hb : Spec.GoodBase base) :
    ∃ x, Denotes env base (Spec.dropTabs (Spec.stripC0 s)) x ∧ ∀ y, Denotes env base (Spec.dropTabs (Spec.stripC0 s)) y → y = x :=
  ⟨_, (C83_denotes env s base hs hb _).1 rfl, fun y hy => ((C83_denotes env s base hs hb y).2 hy).symm⟩

example : ∃ x, Denotes exEnv none u!"http:a:b" x ∧ ∀ y, Denotes exEnv none u!"http:a:b" y → y = x :=
  C83_unique exEnv u!"http:a:b" none (by decide) (by intro b h; cases h)

/-- every URL object can be a base -/
theorem reached_base {env : Env} {o : URLObj} (h : Reached env o) : Spec.GoodBase (some o.url) := by
  rintro b hb hs
  cases hb
  have hw := h.objOK (hostSpec_true env.quiet)
  obtain ⟨-, segs, hp, -⟩ := hw.url.specialHasHost ((special_iff _).1 (by rw [← hs]; exact (isSpecial_eq _).symm))
  exact ⟨segs, hp⟩

/-- C83 for a URL object as base, whatever was done to it before. -/
theorem C83_object_base (env : Env) (s : Str) (o : URLObj) (hs : IsStr s) (h : Reached env o) (x : Except Err Rec) :
    (parseUrl env s (.record o.url)).res = x ↔ Denotes env (some o.url) (Spec.dropTabs (Spec.stripC0 s)) x :=
  C83_denotes env s (some o.url) hs (reached_base h) x

example (o : URLObj) (h : Reached exEnv o) (hu : o.url = exRecord) :
    (parseUrl exEnv u!"/x" (.record o.url)).res = .ok { exRecord with path := .list [u!"x"], query := none, fragment := none } := by
  rw [C83_object_base exEnv u!"/x" o (by decide) h, hu]
  refine .reference _ exRecord _ _ ?_ rfl rfl (by decide) (Relative.rooted c!"/" u!"x" none none (by decide) (by decide) ⟨by decide, by simp⟩)
  rintro ⟨sc, rest, ⟨c, cs, rfl, hc, -⟩, h⟩
  simp only [List.cons_append] at h
  injection h with h _
  subst h
  exact absurd hc (by decide)

/-- C83 for a base that is given as a text. -/
theorem C83_text_base (env : Env) (s t : Str) (hs : IsStr s) (ht : IsStr t) (x : Except Err Rec) :
    (parseUrl env s (.str t)).res = x ↔
      (∃ b, Denotes env none (Spec.dropTabs (Spec.stripC0 t)) (.ok b) ∧ Denotes env (some b) (Spec.dropTabs (Spec.stripC0 s)) x) ∨
      (∃ e, Denotes env none (Spec.dropTabs (Spec.stripC0 t)) (.error e) ∧ x = .error e) := by
  have h0 := C83_denotes env t none ht (by intro b h; cases h)
  have e0 : (parseUrl env t (baseArg none)).res = (basicParse env t none .utf8).toExcept := parse_baseArg_res ..
  rw [e0] at h0
  unfold parseUrl
  dsimp only
  cases hp : (basicParse env t none .utf8).toExcept with
  | error e =>
    rw [hp] at h0
    constructor
    · intro h
      exact .inr ⟨e, (h0 _).1 rfl, h.symm⟩
    · rintro (⟨b, h1, -⟩ | ⟨e', h1, rfl⟩)
      · cases (h0 _).2 h1
      · cases (h0 _).2 h1
        rfl
  | ok b =>
    have hb : Spec.GoodBase (some b) := by
      rintro b' hb hs
      cases hb
      have hpar : Parsed env b := .alone (e := .utf8) ht trivial (by rw [← hp]; exact e0)
      have hw := hpar.wf (hostSpec_true env)
      obtain ⟨-, segs, hp, -⟩ := hw.specialHasHost ((special_iff _).1 (by rw [← hs]; exact (isSpecial_eq _).symm))
      exact ⟨segs, hp⟩
    have h1 := C83_denotes env s (some b) hs hb
    rw [parse_baseArg_res] at h1
    rw [hp] at h0
    show (basicParse env s (some b) .utf8).toExcept = x ↔ _
    rw [h1]
    constructor
    · exact fun h => .inl ⟨b, (h0 _).1 rfl, h⟩
    · rintro (⟨b', h2, h3⟩ | ⟨e', h2, -⟩)
      · cases (h0 _).2 h2
        exact h3
      · cases (h0 _).2 h2

example : (parseUrl exEnv u!"#f g" (.str u!"mailto:a")).res = .ok { scheme := u!"mailto", path := .opaque u!"a", fragment := some u!"f%20g" } := by
  rw [C83_text_base exEnv u!"#f g" u!"mailto:a" (by decide) (by decide)]
  refine .inl ⟨{ scheme := u!"mailto", path := .opaque u!"a" }, ?_, .opaqueFragment u!"f g" _ u!"a" rfl rfl⟩
  exact .opaque u!"mailto" u!"a" none none ⟨c!"m", u!"ailto", rfl, by decide, by decide⟩ (by decide) (by decide) ⟨by decide, by simp⟩

end Urlstd.Props
