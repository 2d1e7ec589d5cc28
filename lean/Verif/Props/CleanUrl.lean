/-
Property C99: the URLs whose href is parsed without a validation error.
-/
import Verif.Lemmas.CleanUrl3
import Verif.Props.Parsed

namespace Urlstd.Props

open Spec (CleanUrl HasScheme ErrorFree)

/-- C99. What is parsed without a validation error has no credentials, and its components are URL units. -/
theorem C99_kept (env : Env) (s : Str) (base : Option Rec) (hb : ∀ b, base = some b → CleanUrl b) (u : Rec)
    (h : basicParse env s base .utf8 = ⟨.ok (), u, []⟩) : CleanUrl u := parse_clean hb h

theorem cleanUrl_canon {u : Rec} : CleanUrl u.canon ↔ CleanUrl u := by
  have hh : ∀ d, u.canon.host = some (.str d) ↔ u.host = some (.str d) := by
    intro d
    show u.host.map Host.canon = _ ↔ _
    cases u.host with
    | none => simp
    | some x => cases x <;> simp [Host.canon]
  constructor
  · intro h
    exact { username := h.username, password := h.password, host := fun d hd => h.host d ((hh d).2 hd), segments := h.segments,
            text := h.text, query := h.query, fragment := h.fragment }
  · intro h
    exact { username := h.username, password := h.password, host := fun d hd => h.host d ((hh d).1 hd), segments := h.segments,
            text := h.text, query := h.query, fragment := h.fragment }

/-- C99. The href of a URL is parsed without a validation error, against any base, exactly if the URL has no credentials and its
components are URL units. -/
theorem C99_exact (env : Env) (he : EnvOK env) (hi : IdnaOK env) (u : Rec) (h : Parsed env u) (base : Option Rec) (e : Encoding) :
    (∃ v, basicParse env u.serialize base e = ⟨.ok (), v, []⟩) ↔ CleanUrl u := by
  have hw := h.wf (hostSpec_wf hi)
  constructor
  · intro hq
    obtain ⟨hun, hq⟩ := (C98_exact env _ base e).1 hq
    have hs : HasScheme u.serialize := by
      refine ⟨u.scheme, u.serialize.drop (u.scheme.length + 1), schemeOK_text hw.auth.scheme, ?_⟩
      rw [serialize_split]
      unfold Rec.beforePath
      simp
    have hq : ErrorFree (HostSilent env) (DigitsOK env) none u.serialize := by
      rcases hq with hq | hq
      · exact ⟨hun, .inl hq⟩
      · exact absurd hs hq.1
    obtain ⟨v, hv⟩ := (C98_exact env _ none .utf8).2 hq
    have hr := basicParse_serialize (base := none) he hi hw
    have hc := C99_kept env _ none (fun b hb => by cases hb) v hv
    rw [hv] at hr
    injection hr with hr
    have hr : v = u.canon := hr
    rw [hr] at hc
    exact cleanUrl_canon.1 hc
  · intro hc
    exact (C98_exact env _ base e).2 (clean_errorFree he hi hw hc base)

/-- C99. So the href of what is parsed without a validation error is parsed without one, whatever it is parsed against. -/
theorem C99_href (env : Env) (he : EnvOK env) (hi : IdnaOK env) (s : Str) (hs : Spec.IsStr s) (base : Option Rec)
    (hb : ∀ b, base = some b → Parsed env b ∧ CleanUrl b) (u : Rec) (h : basicParse env s base .utf8 = ⟨.ok (), u, []⟩)
    (base' : Option Rec) (e : Encoding) : ∃ v, basicParse env u.serialize base' e = ⟨.ok (), v, []⟩ := by
  have hp : Parsed env u := by
    cases base with
    | none =>
      refine .alone (e := .utf8) hs trivial ?_
      show (basicParse env s none .utf8).toExcept = _
      rw [h]; rfl
    | some b =>
      refine .withRecord (e := .utf8) hs (hb b rfl).1 trivial ?_
      show (basicParse env s (some b) .utf8).toExcept = _
      rw [h]; rfl
  exact (C99_exact env he hi u hp base' e).2 (C99_kept env s base (fun b hb' => (hb b hb').2) u h)

/-- C99. So `is_valid` also says yes to the href of a text to which it says yes: with the default encoding, without a base or with a
base given as a string. -/
theorem C99_is_valid (env : Env) (he : EnvOK env) (hi : IdnaOK env) (s : Str) (hs : Spec.IsStr s) (arg : BaseArg)
    (ha : arg = .none ∨ ∃ t, arg = .str t ∧ Spec.IsStr t) (h : (urlIsValid env s arg).res = .ok true) :
    ∃ u, parseUrl env.recording s arg = .ok u ∧ (urlIsValid env u.serialize).res = .ok true := by
  obtain ⟨u, hu, hsch⟩ := (urlIsValid_silent env s arg .utf8).1 h
  refine ⟨u, hu, ?_⟩
  obtain ⟨base, hb, hp⟩ := (parseUrl_silent env s arg .utf8 u).1 hu
  have hbase : ∀ b, base = some b → Parsed env.recording b ∧ CleanUrl b := by
    intro b hb'
    subst hb'
    rcases ha with rfl | ⟨t, rfl, ht⟩
    · cases hb
    · obtain ⟨r, hr, hq⟩ := hb
      cases hr
      obtain ⟨b', hb', hq'⟩ := (parseUrl_silent env t .none .utf8 b).1 hq
      cases hb'
      exact ⟨.alone (e := .utf8) ht trivial (by rw [hq]; rfl), C99_kept env.recording t none (fun _ h => by cases h) b hq'⟩
  have hparsed : Parsed env.recording u := by
    rcases ha with rfl | ⟨t, rfl, ht⟩
    · exact .alone (e := .utf8) hs trivial (by rw [hu]; rfl)
    · exact .withString (e := .utf8) hs ht trivial (by rw [hu]; rfl)
  obtain ⟨v, hv⟩ := C99_href env.recording he hi.recording s hs base hbase u hp none .utf8
  have hr := basicParse_serialize (env := env.recording) (base := none) he hi.recording (hparsed.wf (hostSpec_wf hi.recording))
  rw [hv] at hr
  injection hr with hr
  have hr : v = u.canon := hr
  refine (urlIsValid_silent env u.serialize .none .utf8).2 ⟨v, (parseUrl_silent env _ .none .utf8 v).2 ⟨none, rfl, hv⟩, ?_⟩
  rw [hr]
  exact hsch

theorem silent_of {env : Env} {s : Str} {base : Option Rec} {e : Encoding} {u : Rec} (h : (basicParse env s base e).toExcept = .ok u)
    (hl : (basicParse env s base e).log = []) : basicParse env s base e = ⟨.ok (), u, []⟩ := by
  rcases hb : basicParse env s base e with ⟨r, w, log⟩
  rw [hb] at h hl
  cases r with
  | error err => cases h
  | ok x =>
    have hl : log = [] := hl
    have h : (Except.ok w : Except Err Rec) = .ok u := h
    injection h with h
    rw [hl, h]

theorem loud_of {env : Env} {s : Str} {base : Option Rec} {e : Encoding} (hl : (basicParse env s base e).log ≠ []) :
    ¬ ∃ v, basicParse env s base e = ⟨.ok (), v, []⟩ := by
  rintro ⟨v, hv⟩
  rw [hv] at hl
  exact hl rfl

theorem parsed_of {env : Env} {s : Str} {e : Encoding} {u : Rec} (hs : Spec.IsStr s) (he : EncOK e)
    (h : (basicParse env s none e).toExcept = .ok u) : Parsed env u := .alone hs he h

/-- the bytes that Shift_JIS has for 表 -/
def exSjis : Encoding := .other fun c => if c < 128 then some [c] else if c = 0x8868 then some [0x95, 0x5C] else none

/-- C99. This needs UTF-8: in Shift_JIS the second byte of 表 is that of "\\", which the query does not encode, so that the href of a
text without a validation error has one. -/
theorem C99_false_encoding : EncOK exSjis ∧ ∃ s u, basicParse exEnv s none exSjis = ⟨.ok (), u, []⟩ ∧ u.serialize = u!"http://h/?%95\\" ∧
    ¬ CleanUrl u ∧ ¬ ∃ v, basicParse exEnv u.serialize none .utf8 = ⟨.ok (), v, []⟩ := by
  have henc : EncOK exSjis := by
    intro c bs h b hb
    dsimp only at h
    split at h
    · cases h; simp at hb; omega
    · split at h
      · cases h; simp at hb; omega
      · cases h
  have h1 : (basicParse exEnv (u!"http://h/?" ++ [0x8868]) none exSjis).toExcept =
      .ok { scheme := u!"http", host := some (.str u!"h"), path := .list [[]], query := some u!"%95\\" } := by decide +kernel
  have hp := silent_of h1 (by decide +kernel)
  have hser : ({ scheme := u!"http", host := some (.str u!"h"), path := .list [[]], query := some u!"%95\\" } : Rec).serialize =
      u!"http://h/?%95\\" := by decide +kernel
  have hne : ¬ ∃ v, basicParse exEnv u!"http://h/?%95\\" none .utf8 = ⟨.ok (), v, []⟩ := loud_of (by decide +kernel)
  refine ⟨henc, _, _, hp, hser, ?_, ?_⟩
  · rw [← C99_exact exEnv (.inr (by decide)) exEnv_idna _ (parsed_of (by decide) henc h1) none .utf8, hser]
    exact hne
  · rw [hser]; exact hne

-- the href of a URL with credentials has a validation error
example : ¬ ∃ v, basicParse exEnv exRecord.serialize none .utf8 = ⟨.ok (), v, []⟩ := by
  rw [C99_exact exEnv (.inr (by decide)) exEnv_idna exRecord exRecord_parsed]
  intro h
  exact absurd h.username (by decide)
-- a text with validation errors can have an href without one; what is encoded in a path is written without an error
example : ∃ u, (basicParse exEnv u!" http:\\\\EX.com/a b" none .utf8).toExcept = .ok u ∧ (basicParse exEnv u!" http:\\\\EX.com/a b" none .utf8).log ≠ [] ∧
    u.serialize = u!"http://ex.com/a%20b" ∧ CleanUrl u := by
  have h : (basicParse exEnv u!" http:\\\\EX.com/a b" none .utf8).toExcept =
      .ok { scheme := u!"http", host := some (.str u!"ex.com"), path := .list [u!"a%20b"] } := by decide +kernel
  have hser : ({ scheme := u!"http", host := some (.str u!"ex.com"), path := .list [u!"a%20b"] } : Rec).serialize = u!"http://ex.com/a%20b" := by
    decide +kernel
  refine ⟨_, h, by decide +kernel, hser, ?_⟩
  rw [← C99_exact exEnv (.inr (by decide)) exEnv_idna _ (parsed_of (e := .utf8) (by decide) trivial h) none .utf8, hser]
  exact ⟨_, silent_of (u := { scheme := u!"http", host := some (.str u!"ex.com"), path := .list [u!"a%20b"] }) (by decide +kernel) (by decide +kernel)⟩
-- the kept "|" of a path is no URL unit
example : ∃ u, (basicParse exEnv u!"http://h/a|b" none .utf8).toExcept = .ok u ∧ ¬ CleanUrl u := by
  have h : (basicParse exEnv u!"http://h/a|b" none .utf8).toExcept =
      .ok { scheme := u!"http", host := some (.str u!"h"), path := .list [u!"a|b"] } := by decide +kernel
  have hser : ({ scheme := u!"http", host := some (.str u!"h"), path := .list [u!"a|b"] } : Rec).serialize = u!"http://h/a|b" := by
    decide +kernel
  refine ⟨_, h, ?_⟩
  rw [← C99_exact exEnv (.inr (by decide)) exEnv_idna _ (parsed_of (e := .utf8) (by decide) trivial h) none .utf8, hser]
  exact loud_of (by decide +kernel)
-- a valid text; by C99_is_valid its href is valid
example : (urlIsValid exEnv u!"HTTP://Ex.com:8080/../a%41/./b?q#f").res = .ok true := by decide +kernel

end Urlstd.Props
