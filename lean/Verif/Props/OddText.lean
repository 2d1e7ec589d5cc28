/-
Property C100: the texts without a validation error that are no valid URL strings.
-/
import Verif.Lemmas.OddText
import Verif.Props.ErrorFree

namespace Urlstd.Props

open Spec (ValidURL OddText SilentHost NamedScheme ErrorFree HasScheme)

theorem validURL_named {host : Bool → Str → Prop} {base : Option Rec} {scheme s : Str}
    (h : ValidURL (SilentHost host true) (SilentHost host false) base scheme s) : NamedScheme base s scheme := by
  obtain ⟨front, q, f, rfl, hq, hf, ⟨sc, rest, hsc, rfl, rfl, -⟩ | ⟨b, rfl, rfl, h⟩⟩ := h
  · exact .inl ⟨sc, rest ++ q ++ f, hsc, by simp, rfl⟩
  · refine .inr ⟨?_, b, rfl, rfl⟩
    rw [List.append_assoc]
    exact (relative_notOdd ⟨q, f, rfl, hq, hf⟩ h).1

/-- C100. What is parsed without a validation error is a valid URL string, with the scheme of the URL, exactly if it is none of the
listed exceptions: for every IDNA library, every base, every encoding. The valid hosts are those without a validation error. -/
theorem C100_exact (env : Env) (s : Str) (base : Option Rec) (e : Encoding) (u : Rec) (h : basicParse env s base e = ⟨.ok (), u, []⟩) :
    ValidURL (SilentHost (HostSilent env) true) (SilentHost (HostSilent env) false) base u.scheme s ↔ ¬ OddText base s := by
  constructor
  · exact valid_notOdd
  · intro ho
    obtain ⟨scheme, hv⟩ := errorFree_valid ((C98_exact env s base e).1 ⟨u, h⟩) ho
    rw [(C98_scheme env s base e u h scheme).1 (validURL_named hv)]
    exact hv

/-- C100. If `is_valid` says yes, the text is a valid URL string or one of the exceptions, and not both. -/
theorem C100_is_valid (env : Env) (s : Str) (arg : BaseArg) (e : Encoding) (h : (urlIsValid env s arg e).res = .ok true) :
    ∃ base, BaseIs env e arg base ∧
      ((∃ scheme, ValidURL (SilentHost (HostSilent env.recording) true) (SilentHost (HostSilent env.recording) false) base scheme s) ↔
        ¬ OddText base s) := by
  obtain ⟨base, scheme, hb, hf, -, -⟩ := (C98_is_valid env s arg e).1 h
  obtain ⟨u, hu⟩ := (C98_exact env.recording s base e).2 hf
  refine ⟨base, hb, fun ⟨_, hv⟩ => valid_notOdd hv, fun ho => ⟨u.scheme, (C100_exact env.recording s base e u hu).2 ho⟩⟩

/-- C100. The exceptions are no valid URL strings, whatever the valid hosts are, if no host is empty or has a "/", "?" or "#". -/
theorem C100_odd (vh vo : Str → Prop) (h1 : ∀ h, vh h → h ≠ [] ∧ ∀ c ∈ h, c ∉ u!"/?#") (h2 : ∀ h, vo h → h ≠ [] ∧ ∀ c ∈ h, c ∉ u!"/?#")
    (base : Option Rec) (s : Str) (h : OddText base s) (scheme : Str) : ¬ ValidURL vh vo base scheme s := by
  let host : Bool → Str → Prop := fun b h => if b then vh h else vo h
  have e1 : vh = SilentHost host true := by
    funext h
    exact propext ⟨fun hv => ⟨(h1 h hv).1, hv, (h1 h hv).2⟩, fun hv => hv.2.1⟩
  have e2 : vo = SilentHost host false := by
    funext h
    exact propext ⟨fun hv => ⟨(h2 h hv).1, (hv : vo h), (h2 h hv).2⟩, fun hv => hv.2.1⟩
  intro hv
  rw [e1, e2] at hv
  exact valid_notOdd hv h

/-- C100. In particular they are no valid URL strings with the standard's valid hosts (without those that C73 leaves out). -/
theorem C100_standard (env : Env) (he : EnvOK env) (hi : IdnaOK env) (hst : Spec.StrictOK env) (base : Option Rec) (s : Str)
    (h : OddText base s) (scheme : Str) : ¬ ValidURL (PlainHost env) PlainOpaque base scheme s := by
  obtain ⟨hv, -, -⟩ := plainHosts_ok he hi hst
  have fine : ∀ m h, FineHost env m h → ∀ c ∈ h, c ∉ u!"/?#" := by
    intro m h hf c hc hn
    have h1 : c ∈ u!"/?#\\@[]" := by
      simp only [List.mem_cons, List.not_mem_nil, or_false] at hn ⊢
      omega
    have h2 : c ∉ u!"[]" := by
      simp only [List.mem_cons, List.not_mem_nil, or_false] at hn ⊢
      omega
    rcases hf.1 with hf | ⟨a, rfl, ha⟩
    · refine hf c hc ?_
      simp only [List.mem_cons, List.not_mem_nil, or_false] at hn ⊢
      omega
    · simp only [List.mem_append] at hc
      rcases hc with (hc | hc) | hc
      · exact h2 (by simp only [List.mem_cons, List.not_mem_nil, or_false] at hc ⊢; omega)
      · exact ha c hc h1
      · exact h2 (by simp only [List.mem_cons, List.not_mem_nil, or_false] at hc ⊢; omega)
  refine C100_odd _ _ (fun h hh => ?_) (fun h hh => ?_) base s h scheme
  · exact ⟨(hv.special h hh).1, fine _ h (hv.special h hh).2.1⟩
  · exact ⟨(hv.other h hh).1, fine _ h (hv.other h hh).2⟩

/-- C73. A valid URL string with the hosts of `C73_no_errors_partial` is parsed without a validation error exactly if it is no reference
to a base with an opaque path, or a fragment only. -/
theorem C73_base_exact (env : Env) (he : EnvOK env) (hi : IdnaOK env) (hst : Spec.StrictOK env) (s : Str) (base : Option Rec)
    (e : Encoding) (scheme : Str) (hl : env.maxStrDigits = 0 ∨ s.length ≤ env.maxStrDigits)
    (h : ValidURL (PlainHost env) PlainOpaque base scheme s) :
    (∃ u, basicParse env s base e = ⟨.ok (), u, []⟩) ↔
      ∀ b t, base = some b → b.path = .opaque t → HasScheme s ∨ ∃ f, s = c!"#" :: f := by
  constructor
  · intro hu b t hb ht
    obtain ⟨-, ⟨sc, rest, hsc, hs, -⟩ | ⟨-, b', hb', hr⟩⟩ := (C98_exact env s base e).1 hu
    · exact .inl ⟨sc, rest, hsc, by rw [hs]; simp⟩
    · cases hb.symm.trans hb'
      unfold Spec.ErrorFreeRelative at hr
      rw [ht] at hr
      obtain ⟨f, hf, -⟩ := hr
      exact .inr ⟨f, hf⟩
  · intro hc
    by_cases hall : ∀ b t, base = some b → b.path = .opaque t → HasScheme s
    · obtain ⟨u, hu, -⟩ := C73_no_errors_partial env he hi hst s base e scheme hall hl h
      exact ⟨u, hu⟩
    · simp only [Classical.not_forall] at hall
      obtain ⟨b, t, hb, ht, hn⟩ := hall
      obtain ⟨f, rfl⟩ := (hc b t hb ht).resolve_left hn
      refine (C98_exact env _ base e).2 ⟨?_, .inr ⟨hn, b, hb, ?_⟩⟩
      · obtain ⟨-, h2, h3⟩ := plainHosts_ok he hi hst
        have hv := validURL_visible h2 h3 h
        exact ⟨fun c hc => hv c (List.mem_of_mem_head? hc), fun c hc => hv c (List.mem_of_mem_getLast? hc), fun c hc => by
          have := hv c hc
          omega⟩
      · unfold Spec.ErrorFreeRelative
        rw [ht]
        refine ⟨f, rfl, ?_⟩
        obtain ⟨front, q, f', hs, hq, hf, h⟩ := h
        rw [List.append_assoc] at hs
        have hfront : front = [] := by
          cases hfr : front with
          | nil => rfl
          | cons c front' =>
            subst hfr
            have hcc : c = c!"#" := by
              have h1 : c!"#" :: f = c :: (front' ++ (q ++ f')) := hs
              injection h1 with h1 _
              exact h1.symm
            subst hcc
            have absurdHead : ∀ t, c!"#" :: front' ≠ c!"/" :: t := fun t h1 => by cases h1
            have schemeless : ¬ Spec.PathRelativeSchemeless (c!"#" :: front') :=
              fun h1 => units_no_hash (pathRelative_units h1.1) (by simp)
            have abs : ¬ Spec.PathAbsolute (c!"#" :: front') := fun ⟨p, h1, _⟩ => absurdHead _ h1
            rcases h with h | ⟨b', -, -, h⟩
            · obtain ⟨sc, rest, hsc, -, h1, -⟩ := h
              exact absurd ⟨sc, rest ++ (q ++ f'), hsc, by rw [hs, h1]; simp⟩ hn
            · unfold Spec.RelativeURL at h
              split at h
              · rcases h with (⟨x, y, h1, -⟩ | ⟨y, h1, -⟩) | ⟨-, h1⟩ | ⟨-, h1⟩ | h1
                · simp at h1
                · exact absurd h1 (absurdHead _)
                · exact absurd h1 abs
                · exact absurd h1.1 abs
                · exact absurd h1 schemeless
              · split at h
                · rcases h with ⟨x, y, z, h1, -⟩ | h1 | h1
                  · simp at h1
                  · exact absurd h1 abs
                  · exact absurd h1 schemeless
                · rcases h with ⟨x, y, h1, -⟩ | h1 | h1
                  · simp at h1
                  · exact absurd h1 abs
                  · exact absurd h1 schemeless
        subst hfront
        exact tailText_hash.1 ⟨q, f', hs, hq, hf⟩

/-! ### Examples -/

-- the hypotheses of the last theorem
example (scheme : Str) : ¬ ValidURL (PlainHost exEnvStd3) PlainOpaque none scheme u!"http://h//x" :=
  C100_standard exEnvStd3 (.inr (by decide)) exEnvStd3_idna exEnvStd3_strict none _
    (.inl ⟨u!"http", u!"//h//x", ⟨c!"h", u!"ttp", rfl, by decide, by decide⟩, rfl, .inl ⟨u!"h", u!"x", rfl, by decide⟩⟩) scheme

/-- C100: what a decision by computation says about a text without a validation error -/
theorem silent_parse {env : Env} {s : Str} {base : Option Rec} {e : Encoding} {r : Rec}
    (h : (basicParse env s base e).toExcept = .ok r) (hl : (basicParse env s base e).log = []) :
    basicParse env s base e = ⟨.ok (), r, []⟩ := by
  revert h hl
  rcases basicParse env s base e with ⟨x, u, l⟩
  cases x with
  | error err => intro h; cases h
  | ok x =>
    intro h hl
    cases h
    cases hl
    rfl

-- a valid URL string
example : ∃ scheme, ValidURL (SilentHost (HostSilent exEnvStd3) true) (SilentHost (HostSilent exEnvStd3) false) none scheme u!"http://h/x" := by
  refine ⟨u!"http", (C100_exact exEnvStd3 _ none .utf8 { scheme := u!"http", host := some (.str u!"h"), path := .list [u!"x"] }
    (silent_parse (by decide +kernel) (by decide +kernel))).2 ?_⟩
  refine (fun h => valid_notOdd (host := fun _ h => h = u!"h") (scheme := u!"http") ?_ h)
  refine ⟨u!"http://h/x", [], [], rfl, .inl rfl, .inl rfl, .inl ⟨u!"http", u!"//h/x", ?_, by decide, rfl, ?_⟩⟩
  · exact ⟨c!"h", u!"ttp", rfl, by decide, by decide⟩
  · rw [if_neg (by decide), if_pos (by decide)]
    refine ⟨u!"h", [], u!"/x", rfl, ⟨by decide, rfl, by decide⟩, .inl rfl, .inr ⟨u!"x", rfl, ?_⟩⟩
    exact pathRelative_iff.2 ⟨.point (by decide) (by decide) .nil, by decide⟩

-- each of the exceptions is parsed without a validation error
example : OddText none u!"http://h//x" ∧ (basicParse exEnvStd3 u!"http://h//x" none .utf8).toExcept =
      .ok { scheme := u!"http", host := some (.str u!"h"), path := .list [[], u!"x"] } ∧
    (basicParse exEnvStd3 u!"http://h//x" none .utf8).log = [] :=
  ⟨.inl ⟨u!"http", u!"//h//x", ⟨c!"h", u!"ttp", rfl, by decide, by decide⟩, rfl, .inl ⟨u!"h", u!"x", rfl, by decide⟩⟩,
    by decide +kernel, by decide +kernel⟩

example : OddText none u!"file://h/C:/x" ∧ (basicParse exEnvStd3 u!"file://h/C:/x" none .utf8).toExcept =
      .ok { scheme := u!"file", host := some (.str u!"h"), path := .list [u!"C:", u!"x"] } ∧
    (basicParse exEnvStd3 u!"file://h/C:/x" none .utf8).log = [] :=
  ⟨.inl ⟨u!"file", u!"//h/C:/x", ⟨c!"f", u!"ile", rfl, by decide, by decide⟩, rfl,
      .inr (.inl ⟨by decide, .inl ⟨u!"h", u!"/C:/x", rfl, by decide, by decide, c!"C", c!":", u!"x", rfl, by decide, .inl rfl⟩⟩)⟩,
    by decide +kernel, by decide +kernel⟩

example : OddText none u!"file://" ∧ (basicParse exEnvStd3 u!"file://" none .utf8).toExcept =
      .ok { scheme := u!"file", host := some (.str []), path := .list [[]] } ∧
    (basicParse exEnvStd3 u!"file://" none .utf8).log = [] :=
  ⟨.inl ⟨u!"file", u!"//", ⟨c!"f", u!"ile", rfl, by decide, by decide⟩, rfl,
      .inr (.inl ⟨by decide, .inr ⟨[], rfl, by intro c h; cases h⟩⟩)⟩,
    by decide +kernel, by decide +kernel⟩

example : OddText none u!"urn:isbn:1" ∧ (basicParse exEnvStd3 u!"urn:isbn:1" none .utf8).toExcept =
      .ok { scheme := u!"urn", path := .opaque u!"isbn:1" } ∧
    (basicParse exEnvStd3 u!"urn:isbn:1" none .utf8).log = [] :=
  ⟨.inl ⟨u!"urn", u!"isbn:1", ⟨c!"u", u!"rn", rfl, by decide, by decide⟩, rfl,
      .inr (.inr ⟨u!"isbn", u!"1", ⟨c!"i", u!"sbn", rfl, by decide, by decide⟩, rfl⟩)⟩,
    by decide +kernel, by decide +kernel⟩

example : OddText (some { scheme := u!"file", host := some (.str u!"h"), path := .list [u!"a"] }) u!"/C:/x" ∧
    (basicParse exEnvStd3 u!"/C:/x" (some { scheme := u!"file", host := some (.str u!"h"), path := .list [u!"a"] }) .utf8).toExcept =
      .ok { scheme := u!"file", host := some (.str u!"h"), path := .list [u!"C:", u!"x"] } ∧
    (basicParse exEnvStd3 u!"/C:/x" (some { scheme := u!"file", host := some (.str u!"h"), path := .list [u!"a"] }) .utf8).log = [] := by
  refine ⟨.inr ⟨hasScheme_slash, _, rfl, .inr ⟨by decide, .inr (.inr ⟨by decide, c!"C", c!":", u!"x", rfl, by decide, .inl rfl⟩)⟩⟩,
    by decide +kernel, by decide +kernel⟩

-- a fragment is a valid URL string with a base with an opaque path, and parsed without a validation error
example : ∃ u, basicParse exEnvStd3 u!"#x" (some { scheme := u!"mailto", path := .opaque u!"a" }) .utf8 = ⟨.ok (), u, []⟩ := by
  refine (C73_base_exact exEnvStd3 (.inr (by decide)) exEnvStd3_idna exEnvStd3_strict _ _ .utf8 u!"mailto" (.inr (by decide)) ?_).2
    (fun _ _ _ _ => .inr ⟨_, rfl⟩)
  refine ⟨[], [], u!"#x", rfl, .inl rfl, .inr ⟨u!"x", rfl, .point (by decide) (by decide) .nil⟩, .inr ⟨_, rfl, rfl, ?_⟩⟩
  unfold Spec.RelativeURL
  rw [if_neg (by decide), if_neg (by decide)]
  refine .inr (.inr ⟨pathRelative_iff.2 ⟨.nil, by decide⟩, ?_⟩)
  rintro ⟨sc, rest, ⟨c, cs, rfl, -⟩, h⟩
  cases h

end Urlstd.Props
