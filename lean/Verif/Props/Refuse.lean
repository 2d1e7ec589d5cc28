/-
Property C94: why a text is no URL.
-/
import Verif.Lemmas.Refuse
import Verif.Props.Denote
import Verif.Props.Input
import Verif.Props.Reference

namespace Urlstd.Props

open Spec (IsStr Front Extent AuthorityRefused Refused GoodBase Slash AuthorityEnd HasScheme)

/-- the encoding has no part in this -/
theorem error_encoding (env : Env) (s : Str) (base : BaseArg) (enc : Encoding) (e : Err) :
    (parseUrl env s base enc).res = .error e ↔ (parseUrl env s base).res = .error e := by
  obtain ⟨h1, h2⟩ := C41_encoding_affects_query_only env s base enc
  refine ⟨fun h => ?_, h1 e⟩
  cases hr : (parseUrl env s base).res with
  | error e' => rw [h1 e' hr] at h; injection h with h; rw [h]
  | ok u =>
    obtain ⟨q, h3, -⟩ := h2 u hr
    rw [h3] at h
    cases h

/-- C94, where there is an authority: nothing else matters. -/
theorem C94_authority (env : Env) (s : Str) (hs : IsStr s) (base : Option Rec) (hb : GoodBase base) (enc : Encoding)
    (front scheme a rest : Str) (hf : Front base front scheme) (hx : Extent scheme a rest)
    (h : Spec.dropTabs (Spec.stripC0 s) = front ++ a ++ rest) (e : Err) :
    (parseUrl env s (baseArg base) enc).res = .error e ↔ AuthorityRefused env scheme a e := by
  obtain ⟨x, h1, h2⟩ := front_denotes (env := env) hf hx
  rw [← h] at h1
  rw [error_encoding, (C83_denotes env s base hs hb x).2 h1]
  exact h2 e

/-- C94. A text is refused for one of these reasons, and only for these, with these exceptions. -/
theorem C94_refused (env : Env) (s : Str) (hs : IsStr s) (base : Option Rec) (hb : GoodBase base) (enc : Encoding) (e : Err) :
    (parseUrl env s (baseArg base) enc).res = .error e ↔ Refused env base (Spec.dropTabs (Spec.stripC0 s)) e := by
  constructor
  · intro h
    rcases denotes_front ((C83_denotes env s base hs hb _).1 ((error_encoding env s _ enc e).1 h)) with h1 | ⟨front, sc, a, rest, h1, h2, h3⟩
    · exact .inl h1
    · exact .inr ⟨front, sc, a, rest, h1, h2, h3, (C94_authority env s hs base hb enc front sc a rest h1 h2 h3 e).1 h⟩
  · rintro (⟨rfl, h1, h2⟩ | ⟨front, sc, a, rest, h1, h2, h3, h4⟩)
    · rw [error_encoding, C83_denotes env s base hs hb]
      rcases h2 with h2 | ⟨b, x, h2, h3, h4⟩
      · exact .noBase _ h1 h2
      · exact .opaqueOther _ b x h1 h2 h3 h4
    · exact (C94_authority env s hs base hb enc front sc a rest h1 h2 h3 e).2 h4

/-- C94. Path, query and fragment have no part in this: with the same text up to the end of the authority, and anything behind it, two
texts are both accepted, or both refused with the same exception. -/
theorem C94_rest (env : Env) (s s' : Str) (hs : IsStr s) (hs' : IsStr s') (base : Option Rec) (hb : GoodBase base) (enc enc' : Encoding)
    (front scheme a rest rest' : Str) (hf : Front base front scheme) (hx : Extent scheme a rest) (hx' : Extent scheme a rest')
    (h : Spec.dropTabs (Spec.stripC0 s) = front ++ a ++ rest) (h' : Spec.dropTabs (Spec.stripC0 s') = front ++ a ++ rest') (e : Err) :
    (parseUrl env s (baseArg base) enc).res = .error e ↔ (parseUrl env s' (baseArg base) enc').res = .error e := by
  rw [C94_authority env s hs base hb enc front scheme a rest hf hx h, C94_authority env s' hs' base hb enc' front scheme a rest' hf hx' h']

/-- the scheme at the start of a text is found in one way only -/
theorem scheme_unique {sc sc' r r' : Str} (h : Spec.SchemeText sc) (h' : Spec.SchemeText sc') (he : sc ++ u!":" ++ r = sc' ++ u!":" ++ r') :
    sc = sc' ∧ r = r' := by
  have hc : ∀ {x : Str}, Spec.SchemeText x → ∀ c ∈ x, (c == 58) = false := by
    rintro x ⟨c, cs, rfl, h1, h2⟩ y hy
    have : Spec.Letter y ∨ Spec.Digit y ∨ y = 43 ∨ y = 45 ∨ y = 46 := by
      rcases List.mem_cons.1 hy with rfl | hy
      · exact .inl h1
      · exact h2 y hy
    unfold Spec.Letter Spec.Digit at this
    simp
    omega
  rw [List.append_assoc, List.append_assoc] at he
  obtain ⟨h1, h2⟩ := split_unique (p := (· == 58)) (hc h) (hc h') (by simp) (by simp) he
  refine ⟨h1, ?_⟩
  simpa using h2

/-- C94. A scheme that is not special and no two slashes behind it: every such text is accepted. -/
theorem C94_no_authority (env : Env) (s : Str) (hs : IsStr s) (base : Option Rec) (hb : GoodBase base) (enc : Encoding) (sc r : Str)
    (hsc : Spec.SchemeText sc) (hn : ¬ Spec.Special (Spec.toLower sc)) (h : Spec.dropTabs (Spec.stripC0 s) = sc ++ u!":" ++ r)
    (hr : ¬ u!"//" <+: r) : ∃ u, (parseUrl env s (baseArg base) enc).res = .ok u := by
  have hn' : Spec.isSpecial (Spec.toLower sc) = false := by
    cases hsp : Spec.isSpecial (Spec.toLower sc) with
    | false => rfl
    | true => exact absurd ((special_iff _).1 (by rw [← hsp]; exact (isSpecial_eq _).symm)) hn
  cases hres : (parseUrl env s (baseArg base) enc).res with
  | ok u => exact ⟨u, rfl⟩
  | error e =>
    exfalso
    have hcol : ∀ {sc' x : Str}, Spec.SchemeText sc' → Spec.isSpecial (Spec.toLower sc') = true → sc ++ u!":" ++ r = sc' ++ u!":" ++ x → False := by
      intro sc' x h1 h2 h3
      obtain ⟨rfl, -⟩ := scheme_unique hsc h1 h3
      rw [hn'] at h2
      cases h2
    have hsl : ∀ {x : Nat} {y : Str} {sp : Bool}, Slash sp x → sc ++ u!":" ++ r = x :: y → False := by
      intro x y sp h1 h2
      exact not_hasScheme_slash h1 (t := y) ⟨sc, r, hsc, h2.symm⟩
    rcases (C94_refused env s hs base hb enc e).1 hres with ⟨-, h1, -⟩ | ⟨front, sch, a, rest, h1, -, h3, -⟩
    · exact h1 ⟨sc, r, hsc, h⟩
    · rw [h] at h3
      cases h1 with
      | special sc' sl hsc' hs' _ _ _ => exact hcol (x := sl ++ a ++ rest) hsc' hs' (by rw [h3]; simp)
      | specialSlashes sc' s1 s2 sl hsc' hs' _ _ _ _ => exact hcol (x := s1 :: s2 :: sl ++ a ++ rest) hsc' hs' (by rw [h3]; simp)
      | other sc' hsc' hs' =>
        obtain ⟨-, rfl⟩ := scheme_unique (r' := u!"//" ++ a ++ rest) hsc hsc' (by rw [h3]; simp)
        exact hr ⟨a ++ rest, by simp⟩
      | file sc' s1 s2 hsc' hf _ _ =>
        exact hcol (x := s1 :: s2 :: a ++ rest) hsc' (by rw [hf]; decide) (by rw [h3]; simp)
      | fileReference b p s1 s2 hbase hp hf h1 h2 => exact hsl h1 (y := s2 :: (a ++ rest)) (by rw [h3]; simp)
      | reference b p s1 s2 sl hbase hp hf h1 h2 _ => exact hsl h1 (y := s2 :: (sl ++ a ++ rest)) (by rw [h3]; simp)

/-- C94. A reference that has no scheme and does not begin with two slashes is accepted with every base whose path is not opaque. -/
theorem C94_reference (env : Env) (s : Str) (hs : IsStr s) (b : Rec) (p : List Str) (hp : b.path = .list p) (enc : Encoding)
    (hn : ¬ HasScheme (Spec.dropTabs (Spec.stripC0 s)))
    (h : ∀ s1 s2 t, Spec.dropTabs (Spec.stripC0 s) = s1 :: s2 :: t → ¬ (Slash (Spec.isSpecial b.scheme) s1 ∧ Slash (Spec.isSpecial b.scheme) s2)) :
    ∃ u, (parseUrl env s (.record b) enc).res = .ok u := by
  have hb : GoodBase (some b) := fun b' h _ => by cases h; exact ⟨p, hp⟩
  cases hres : (parseUrl env s (.record b) enc).res with
  | ok u => exact ⟨u, rfl⟩
  | error e =>
    exfalso
    rcases (C94_refused env s hs (some b) hb enc e).1 hres with ⟨-, -, h2⟩ | ⟨front, sch, a, rest, h1, -, h3, -⟩
    · rcases h2 with h2 | ⟨b', x, h2, h3, -⟩
      · cases h2
      · cases h2; rw [hp] at h3; cases h3
    · have hno : ∀ {sc x : Str}, Spec.SchemeText sc → Spec.dropTabs (Spec.stripC0 s) = sc ++ u!":" ++ x → False :=
        fun h1 h2 => hn ⟨_, _, h1, h2⟩
      cases h1 with
      | special sc' sl hsc' hs' _ _ _ => exact hno (x := sl ++ a ++ rest) hsc' (by rw [h3]; simp)
      | specialSlashes sc' s1 s2 sl hsc' hs' _ _ _ _ => exact hno (x := s1 :: s2 :: sl ++ a ++ rest) hsc' (by rw [h3]; simp)
      | other sc' hsc' hs' => exact hno (x := u!"//" ++ a ++ rest) hsc' (by rw [h3]; simp)
      | file sc' s1 s2 hsc' hf _ _ => exact hno (x := s1 :: s2 :: a ++ rest) hsc' (by rw [h3]; simp)
      | fileReference b' p s1 s2 hbase hp hf h1 h2 =>
        cases hbase
        have hsp : Spec.isSpecial b.scheme = true := by rw [hf]; decide
        exact h s1 s2 (a ++ rest) (by rw [h3]; simp) (by rw [hsp]; exact ⟨h1, h2⟩)
      | reference b' p s1 s2 sl hbase hp hf h1 h2 _ =>
        cases hbase
        exact h s1 s2 (sl ++ a ++ rest) (by rw [h3]; simp) ⟨h1, h2⟩

/-! ### Examples -/

local instance decidableEnd (sp : Bool) (c : Nat) : Decidable (AuthorityEnd sp c) := inferInstanceAs (Decidable (_ ∨ _))

/-- "http://a:65536" with any path, query and fragment -/
theorem exFront : Front none u!"HTTP:\\/" u!"http" :=
  .special u!"HTTP" u!"\\/" ⟨72, u!"TTP", rfl, by decide, by decide⟩ (by decide) (by decide) (fun _ h => by cases h) (by decide)

example (rest : Str) (hr : IsStr rest) (h : ∀ c, rest.head? = some c → AuthorityEnd true c)
    (ht : Spec.dropTabs (Spec.stripC0 (u!"HTTP:\\/u@a:65536" ++ rest)) = u!"HTTP:\\/u@a:65536" ++ rest) :
    (parseUrl exEnv (u!"HTTP:\\/u@a:65536" ++ rest) .none).res = .error .urlParse := by
  refine (C94_authority exEnv _ (fun c hc => ?_) none (fun _ h => by cases h) .utf8 u!"HTTP:\\/" u!"http" u!"u@a:65536" rest exFront
    ⟨by decide, h, fun _ _ h => by cases h⟩ ht _).2 ?_
  · rcases List.mem_append.1 hc with hc | hc
    · exact (by decide : IsStr u!"HTTP:\\/u@a:65536") c hc
    · exact hr c hc
  · refine ⟨some u!"u", u!"a", some u!"65536", ?_, by decide, .inr (.inr ⟨by decide, ⟨.str u!"a", by decide +kernel⟩, _, rfl,
      .inr (.inr ⟨by decide, by decide, by decide, rfl⟩)⟩)⟩
    refine ⟨by decide, by decide, ?_, ?_, by decide, by decide, by decide, by decide⟩
    · intro a b h
      have : c!":" ∈ u!"a" := by rw [show u!"a" = _ from h]; simp
      exact absurd this (by decide)
    · rintro x ⟨⟩
      refine ⟨by decide, ?_⟩
      rintro ⟨a, b, h, -⟩
      have : c!"[" ∈ u!"a" := by rw [show u!"a" = _ from h]; simp
      exact absurd this (by decide)

/-- no base, a host that is missing, a host that is refused -/
example : Refused exEnv none u!"a/b" .urlParse ∧ Refused exEnv none u!"foo://@/x" .urlParse ∧ Refused exEnv (some exRecord) u!"\\/[::g]" .ipv6Parse :=
  ⟨(C94_refused exEnv u!"a/b" (by decide) none (fun _ h => by cases h) .utf8 _).1 (by decide +kernel),
    (C94_refused exEnv u!"foo://@/x" (by decide) none (fun _ h => by cases h) .utf8 _).1 (by decide +kernel),
    (C94_refused exEnv u!"\\/[::g]" (by decide) (some exRecord) (fun b h _ => by cases h; exact ⟨_, rfl⟩) .utf8 _).1 (by decide +kernel)⟩

/-- the same authority with another path -/
example : (parseUrl exEnv u!"HTTP:\\/[::g]" .none).res = .error .ipv6Parse ↔ (parseUrl exEnv u!"HTTP:\\/[::g]\\x/?y" .none).res = .error .ipv6Parse :=
  C94_rest exEnv _ _ (by decide) (by decide) none (fun _ h => by cases h) .utf8 .utf8 _ _ u!"[::g]" [] u!"\\x/?y" exFront
    ⟨by decide, by decide, fun _ _ h => by cases h⟩ ⟨by decide, by decide, fun _ _ h => by cases h⟩ rfl rfl _

/-- an opaque path, whatever it is -/
example : ∃ u, (parseUrl exEnv u!"mailto:[::g?%#\\ @:x").res = .ok u :=
  C94_no_authority exEnv _ (by decide) none (fun _ h => by cases h) .utf8 u!"mailto" u!"[::g?%#\\ @:x" ⟨_, _, rfl, by decide, by decide⟩
    (fun h => absurd ((special_iff u!"mailto").2 h) (by decide)) rfl (by decide)

/-- a reference, whatever it is -/
example : ∃ u, (parseUrl exEnv u!"/[::g?%#\\ @:x" (.record exFile)).res = .ok u := by
  refine C94_reference exEnv _ (by decide) exFile _ rfl .utf8 ?_ ?_
  · rintro ⟨sc, rest, ⟨c, cs, rfl, hc, -⟩, h⟩
    injection h with h _
    subst h
    exact absurd hc (by decide)
  · intro s1 s2 t h
    injection h with h1 h2
    injection h2 with h2 _
    subst h1 h2
    decide

end Urlstd.Props
