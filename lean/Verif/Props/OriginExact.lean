/-
Property C69, exactly: the blob URLs whose origin differs from the standard's. And C65: the standard's machine always ends.
-/
import Verif.Lemmas.OriginExact
import Verif.Props.Getter
import Verif.Props.Deviant

namespace Urlstd.Props

open Spec (IsStr IsScalarStr hostParser Parses ParseAsks OddHost DelOK OriginGetter)

/-- C65. The standard's machine ends on every input, with one result, whatever the host parser, the base and the encoding. -/
theorem C65_machine_halts (hp : Str → Bool → Option Host) (s : Str) (base : Option Rec) (e : Encoding) :
    ∃ o, Parses hp s base e o ∧ ∀ o', Parses hp s base e o' → o' = o := by
  obtain ⟨o, ho⟩ := parses_total hp s base e
  exact ⟨o, ho, fun o' h => h.unique ho⟩

/-- C65. So it does with a state override, from every record and in every state. -/
theorem C65_override_halts (hp : Str → Bool → Option Host) (s : Str) (u : Rec) (st : Spec.State) :
    ∃ o, Spec.Modifies hp s u st o ∧ ∀ o', Spec.Modifies hp s u st o' → o' = o := by
  obtain ⟨o, ho⟩ := modifies_total hp s u st
  exact ⟨o, ho, fun o' h => h.unique ho⟩

/-- C69. Every URL record has exactly one origin, whatever the host parser. -/
theorem C69_origin_determined (hp : Str → Bool → Option Host) (u : Rec) :
    ∃ t, OriginGetter hp u t ∧ ∀ t', OriginGetter hp u t' → t' = t := by
  by_cases hb : u.scheme = u!"blob"
  · obtain ⟨x, hx⟩ := parses_total hp (Spec.pathSerializer u.path) none .utf8
    exact ⟨originText x, (originGetter_iff hb hx _).2 rfl, fun t' h => (originGetter_iff hb hx _).1 h⟩
  · refine ⟨Spec.plainOrigin u, .inl ⟨hb, rfl⟩, ?_⟩
    rintro t' (⟨_, h⟩ | ⟨h, _⟩)
    · exact h
    · exact absurd h hb

/-- C69, exactly. Let `t` be the origin by the standard, with its own host parser. `URL.origin` is something else if and only
if the URL is a blob URL, a text of `OddHost` (which the two host parsers read differently, C66) is handed to the host parser
when its path is parsed, and the path is an http or https URL for the library or for the standard.

The path is no longer than the interpreter's limit for digits (C56 has the others). -/
theorem C69_origin_exact (env : Env) (henv : EnvOK env) (hdel : DelOK env) (o : URLObj) (h : Reached env o)
    (hl : o.url.scheme = u!"blob" → ¬ LongInput env o.pathname.length)
    (t : Str) (ht : OriginGetter (hostParser (env.nameToAscii false)) o.url t) :
    o.origin env ≠ .ok t ↔ o.url.scheme = u!"blob" ∧
      (∃ n m, ParseAsks (hostParser (env.nameToAscii false)) o.pathname none .utf8 n m ∧ OddHost env.quiet n m) ∧
      ∃ v, (v.scheme = u!"http" ∨ v.scheme = u!"https") ∧
        ((parseUrl env.quiet o.pathname).res = .ok v ∨ Parses (hostParser (env.nameToAscii false)) o.pathname none .utf8 (.ok v)) := by
  rw [ne_eq, C69_origin_own_partial env o h hl]
  have hw := (h.objOK (hostSpec_pieces _)).url
  by_cases hb : o.url.scheme = u!"blob"
  · have hs : IsScalarStr o.pathname := path_scalar hw
    have hpath : o.pathname = Spec.pathSerializer o.url.path := pathSerializer_eq _
    obtain ⟨x, hx⟩ := parses_total (hostParser (env.nameToAscii false)) o.pathname none .utf8
    obtain ⟨y, hy⟩ := parses_total (hostOf env.quiet) o.pathname none .utf8
    have hown := (C65_parser_partial env.quiet none (fun b hb => (by cases hb)) o.pathname hs .utf8
      trivial trivial (hl hb) (fun b hb => (by cases hb))).1
    change ∀ u, (parseUrl env.quiet o.pathname).res = .ok u ↔ _ at hown
    rw [originGetter_iff hb (hpath ▸ hy)]
    rw [originGetter_iff hb (hpath ▸ hx)] at ht
    subst ht
    have hask : ∀ n m, ParseAsks (hostParser (env.nameToAscii false)) o.pathname none .utf8 n m → IsScalarStr n ∧ (n ≠ [] ∨ m = true) := by
      intro n m ha
      obtain ⟨g1, g2⟩ := asks_mem (K := ⟨none, Spec.encoder .utf8, none, hostParser (env.nameToAscii false)⟩) ha
        ⟨fun h => by simp [Spec.Cfg.start, hostState] at h, fun _ => rfl⟩
      refine ⟨?_, g2⟩
      intro c hc
      have := g1 c hc
      rw [prepared_std] at this
      exact hs c (prepared_mem c this)
    have hun : ∀ v, (parseUrl env.quiet o.pathname).res = .ok v ↔ y = .ok v := fun v =>
      (hown v).trans ⟨fun g => hy.unique g, fun g => g ▸ hy⟩
    constructor
    · intro hne
      refine ⟨hb, ?_, ?_⟩
      · by_contra hc
        apply hne
        have hxy : Parses (hostOf env.quiet) o.pathname none .utf8 x := by
          refine (Halts_iff (K := ⟨none, Spec.encoder .utf8, none, hostParser (env.nameToAscii false)⟩) (hp := hostOf env.quiet) ?_).2 hx
          intro n m ha
          obtain ⟨g1, g2⟩ := hask n m ha
          rw [hostOf_eq]
          by_contra hd
          exact hc ⟨n, m, ha, (C66_host_exact env.quiet henv hdel n g1 m g2).1 (fun h => hd h.symm)⟩
        rw [hy.unique hxy]
      · by_cases hxn : originText x = u!"null"
        · have hyn : originText y ≠ u!"null" := fun hyn => hne (hxn.trans hyn.symm)
          obtain ⟨v, e, hv⟩ := originText_null.1 hyn
          exact ⟨v, hv, .inl ((hun v).2 e)⟩
        · obtain ⟨v, e, hv⟩ := originText_null.1 hxn
          exact ⟨v, hv, .inr (e ▸ hx)⟩
    · rintro ⟨-, ⟨n, m, ha, hodd⟩, v, hv, hor⟩ he
      obtain ⟨g1, g2⟩ := hask n m ha
      have hboth : (∃ v, x = .ok v ∧ (v.scheme = u!"http" ∨ v.scheme = u!"https")) ∧
          ∃ v, y = .ok v ∧ (v.scheme = u!"http" ∨ v.scheme = u!"https") := by
        rcases hor with hor | hor
        · have h2 := originText_null.2 ⟨v, (hun v).1 hor, hv⟩
          exact ⟨originText_null.1 (he ▸ h2), originText_null.1 h2⟩
        · have h2 := originText_null.2 ⟨v, hx.unique hor, hv⟩
          exact ⟨originText_null.1 h2, originText_null.1 (he ▸ h2)⟩
      obtain ⟨⟨w, rfl, hw1⟩, w', rfl, hw2⟩ := hboth
      have hg := originText_host hw1 hw2 he
      obtain ⟨st, a, b, k1, k2, k3, k4⟩ := Halts_hosts
        (K := ⟨none, Spec.encoder .utf8, none, hostParser (env.nameToAscii false)⟩) (hp := hostOf env.quiet) rfl ha hx hy
      rw [hostOf_eq] at k2
      obtain ⟨d, i, rfl, rfl, hf, hends⟩ := odd_both (env := env.quiet) henv hdel g1 g2 hodd k1 k2
      have e2 : intoRecord st (.ipv4 i) = .ipv4 i := by unfold intoRecord; rw [if_neg (by simp)]
      rw [e2] at k4
      have e1 : ∃ d', intoRecord st (.str d) = .str d' ∧ c!":" ∉ d' ∧ Spec.endsInANumber d' = false := by
        unfold intoRecord
        split
        · exact ⟨[], rfl, by simp, ends_nil⟩
        · exact ⟨d, rfl, fun hc => hf _ hc (by decide), hends⟩
      obtain ⟨d', e1, hc, hends'⟩ := e1
      rw [e1] at k3
      have c1 := hostGetter_cut k3 hc
      have c2 := hostGetter_cut k4 (serialized_colon i)
      rw [hg, c2] at c1
      have : Spec.endsInANumber d' = true := by
        show Spec.endsInANumber (Spec.hostSerializer (.str d')) = true
        rw [← c1]; exact ends_serialized i
      rw [hends'] at this
      cases this
  · constructor
    · intro hne
      exfalso
      apply hne
      rcases ht with ht | ht
      · exact .inl ht
      · exact absurd ht.1 hb
    · exact fun hc => absurd hc.1 hb

/-! ### Examples -/

-- `URL("blob:http://1_0/").origin` is not the standard's
example : blobNumeral.origin exEnv ≠ .ok u!"http://1_0" :=
  (C69_origin_exact exEnv (.inr (by decide)) exEnv_del blobNumeral C69_false_origin.1 (fun _ => exEnv_short (by decide))
    _ C69_false_origin.2.2).2
    ⟨rfl, ⟨u!"1_0", false, asked_asks (n := 200) (l := [(u!"1_0", false)]) (by decide +kernel) (by simp), (C66_host_exact exEnv (.inr (by decide)) exEnv_del _
      (by unfold IsScalarStr Spec.Surrogate; decide) _ (.inl (by decide))).1 (by decide +kernel)⟩,
      { scheme := u!"http", host := some (.ipv4 10), path := .list [[]] }, .inl rfl, .inl (by decide +kernel)⟩

-- that of `URL("blob:x://[:::1]/")` is, although the library accepts this URL and the standard does not
example : (⟨{ scheme := u!"blob", path := .opaque u!"x://[:::1]/" }, []⟩ : URLObj).origin exEnv = .ok u!"null" := by
  by_contra hc
  have hr : Reached exEnv ⟨{ scheme := u!"blob", path := .opaque u!"x://[:::1]/" }, []⟩ :=
    .new (s := u!"blob:x://[:::1]/") (by decide) (by decide +kernel)
  have hx : Parses (hostParser (exEnv.nameToAscii false)) u!"x://[:::1]/" none .utf8 (.failure { scheme := u!"x" }) :=
    Spec.exec_halts (n := 200) (by decide +kernel)
  obtain ⟨_, _, v, hv, h | h⟩ := (C69_origin_exact exEnv (.inr (by decide)) exEnv_del _ hr (fun _ => exEnv_short (by decide)) u!"null"
    (.inr ⟨rfl, .inl ⟨_, hx, rfl⟩⟩)).1 hc
  · have : ∃ r, (parseUrl exEnv.quiet u!"x://[:::1]/").res = .ok r ∧ r.scheme = u!"x" :=
      ⟨{ scheme := u!"x", host := some (.ipv6 [0, 0, 0, 0, 0, 0, 0, 1]), path := .list [[]] }, by decide +kernel, rfl⟩
    obtain ⟨r, h1, h2⟩ := this
    rw [show URLObj.pathname ⟨{ scheme := u!"blob", path := .opaque u!"x://[:::1]/" }, []⟩ = u!"x://[:::1]/" from rfl, h1] at h
    cases h
    rw [h2] at hv
    rcases hv with hv | hv <;> cases hv
  · have := hx.unique h
    cases this

end Urlstd.Props
