/-
Property C98: the texts that are parsed without a validation error.
-/
import Verif.Lemmas.SchemeKept
import Verif.Lemmas.OpaqueText
import Verif.Props.Writing
import Verif.Props.IPv6Text

namespace Urlstd.Props

open Spec (ErrorFree NamedScheme URLUnits HasScheme SchemeText V6Text ForbiddenHostCP)

/-- C98. A text is parsed without a validation error exactly if it is a text of the grammar: for every IDNA library, every base,
every encoding. The hosts of the grammar are those that the host parser accepts without a validation error. -/
theorem C98_exact (env : Env) (s : Str) (base : Option Rec) (e : Encoding) :
    (∃ u, basicParse env s base e = ⟨.ok (), u, []⟩) ↔ ErrorFree (HostSilent env) (DigitsOK env) base s := basicParse_quiet

/-- C98. The URL has the scheme that the text names, or else the scheme of the base. -/
theorem C98_scheme (env : Env) (s : Str) (base : Option Rec) (e : Encoding) (u : Rec) (h : basicParse env s base e = ⟨.ok (), u, []⟩)
    (scheme : Str) : NamedScheme base s scheme ↔ u.scheme = scheme := by
  have hun : Spec.Untouched s := ((C98_exact env s base e).1 ⟨u, h⟩).1
  have hev := basicParse_eval env s base e none none
  rw [h, prepared_untouched hun] at hev
  have hev : eval env e base none .schemeStart s {} = (.ok (), u) := hev.symm
  unfold NamedScheme
  by_cases hs : HasScheme s
  · obtain ⟨sc, rest, hsc, hss⟩ := hs
    have hss : s = sc ++ c!":" :: rest := by simpa using hss
    rw [hss] at hev
    have hu := eval_scheme hsc hev
    constructor
    · rintro (⟨sc', rest', hsc', hs', rfl⟩ | ⟨hn, -⟩)
      · rw [hu]
        exact (schemeText_unique hsc hsc' (hss.symm.trans hs')).1
      · exact absurd ⟨sc, rest, hsc, by simpa using hss⟩ hn
    · rintro rfl
      exact .inl ⟨sc, rest, hsc, hss, hu⟩
  · obtain ⟨b, rfl, hu⟩ := eval_base_scheme hs hev
    constructor
    · rintro (⟨sc', rest', hsc', hs', rfl⟩ | ⟨-, b', hb', rfl⟩)
      · exact absurd ⟨sc', rest', hsc', by simpa using hs'⟩ hs
      · cases hb'
        exact hu
    · rintro rfl
      exact .inr ⟨hs, b, rfl, hu⟩

/-- a parse without a validation error, from the base argument on -/
theorem parseUrl_silent (env : Env) (s : Str) (arg : BaseArg) (e : Encoding) (u : Rec) :
    parseUrl env.recording s arg e = .ok u ↔
      ∃ base, BaseIs env e arg base ∧ basicParse env.recording s base e = ⟨.ok (), u, []⟩ := by
  have one : ∀ (base : Option Rec) (l : Log), (⟨(basicParse env.recording s base e).toExcept, (basicParse env.recording s base e).log ++ l⟩ : Res Rec) = .ok u ↔
      basicParse env.recording s base e = ⟨.ok (), u, []⟩ ∧ l = [] := by
    intro base l
    rcases basicParse env.recording s base e with ⟨r, w, log⟩
    cases r with
    | error err => simp [ParseOut.toExcept, Res.ok]
    | ok x => simp [ParseOut.toExcept, Res.ok, and_assoc]
  cases arg with
  | none =>
    refine (one none []).trans ?_
    constructor
    · exact fun h => ⟨none, rfl, h.1⟩
    · rintro ⟨b, hb, h⟩
      cases hb
      exact ⟨h, rfl⟩
  | record r =>
    refine (one (some r) []).trans ?_
    constructor
    · exact fun h => ⟨some r, rfl, h.1⟩
    · rintro ⟨b, hb, h⟩
      cases hb
      exact ⟨h, rfl⟩
  | str t =>
    have hB : ∀ r, parseUrl env.recording t .none e = .ok r ↔ basicParse env.recording t none e = ⟨.ok (), r, []⟩ := by
      intro r
      show (⟨(basicParse env.recording t none e).toExcept, (basicParse env.recording t none e).log ++ []⟩ : Res Rec) = .ok r ↔ _
      rcases basicParse env.recording t none e with ⟨r', w, log⟩
      cases r' with
      | error err => simp [ParseOut.toExcept, Res.ok]
      | ok x => simp [ParseOut.toExcept, Res.ok]
    have hR : (∃ base, BaseIs env e (.str t) base ∧ basicParse env.recording s base e = ⟨.ok (), u, []⟩) ↔
        ∃ r, basicParse env.recording t none e = ⟨.ok (), r, []⟩ ∧ basicParse env.recording s (some r) e = ⟨.ok (), u, []⟩ := by
      constructor
      · rintro ⟨b, ⟨r, rfl, hr⟩, h⟩
        exact ⟨r, (hB r).1 hr, h⟩
      · rintro ⟨r, hr, h⟩
        exact ⟨some r, ⟨r, rfl, (hB r).2 hr⟩, h⟩
    rw [hR]
    unfold parseUrl
    dsimp only
    rcases hb : basicParse env.recording t none e with ⟨r', w, log⟩
    cases r' with
    | error err => simp [ParseOut.toExcept, Res.ok]
    | ok x =>
      refine (one (some w) log).trans ?_
      constructor
      · rintro ⟨h, rfl⟩
        exact ⟨w, rfl, h⟩
      · rintro ⟨r, hr, h⟩
        cases hr
        exact ⟨h, rfl⟩

theorem urlIsValid_silent (env : Env) (s : Str) (arg : BaseArg) (e : Encoding) : (urlIsValid env s arg e).res = .ok true ↔
    ∃ u, parseUrl env.recording s arg e = .ok u ∧ (isValidUrlScheme env u.scheme).res = .ok true := by
  have hlog := parseUrl_log env.recording s arg e
  unfold urlIsValid
  dsimp only
  rcases hp : parseUrl env.recording s arg e with ⟨r, log⟩
  rw [hp] at hlog
  cases r with
  | error err =>
    constructor
    · intro h
      dsimp only at h
      split at h <;> cases h
    · rintro ⟨u, hu, -⟩
      cases hu
  | ok u =>
    have h1 : ∀ l ∈ log, ∃ t, l = .ev t := by
      intro l hl
      cases l with
      | ev t => exact ⟨t, rfl⟩
      | broken t => exact absurd hl (hlog.clean (by simp) t)
    have h2 := ofLog_count_iff log h1
    have h3 : (isValidUrlScheme env u.scheme).validity.validationErrors = 0 ↔ (isValidUrlScheme env u.scheme).res = .ok true := by
      unfold isValidUrlScheme
      dsimp only
      split
      · exact ⟨fun _ => rfl, fun _ => rfl⟩
      · exact ⟨fun h => (by cases h), fun h => (by cases h)⟩
    have h4 : (∃ u', (⟨.ok u, log⟩ : Res Rec) = .ok u' ∧ (isValidUrlScheme env u'.scheme).res = .ok true) ↔
        log = [] ∧ (isValidUrlScheme env u.scheme).res = .ok true := by
      constructor
      · rintro ⟨u', h, h'⟩
        cases h
        exact ⟨rfl, h'⟩
      · rintro ⟨rfl, h⟩
        exact ⟨u, rfl, h⟩
    rw [h4, ← h2, ← h3]
    show (Except.ok (_ + _ == 0) : Except Err Bool) = .ok true ↔ _
    simp only [Except.ok.injEq, beq_iff_eq]
    omega

/-- C98. `is_valid` says yes exactly to the texts of the grammar whose scheme is registered, if the base, where it is a string, is such a
text too (the scheme of the base need not be registered). -/
theorem C98_is_valid (env : Env) (s : Str) (arg : BaseArg) (e : Encoding) : (urlIsValid env s arg e).res = .ok true ↔
    ∃ base scheme, BaseIs env e arg base ∧ ErrorFree (HostSilent env.recording) (DigitsOK env) base s ∧ NamedScheme base s scheme ∧
      (isValidUrlScheme env scheme).res = .ok true := by
  rw [urlIsValid_silent]
  constructor
  · rintro ⟨u, hu, hs⟩
    obtain ⟨base, hb, hp⟩ := (parseUrl_silent env s arg e u).1 hu
    exact ⟨base, u.scheme, hb, (C98_exact env.recording s base e).1 ⟨u, hp⟩, (C98_scheme env.recording s base e u hp _).2 rfl, hs⟩
  · rintro ⟨base, scheme, hb, hf, hn, hs⟩
    obtain ⟨u, hp⟩ := (C98_exact env.recording s base e).2 hf
    refine ⟨u, (parseUrl_silent env s arg e u).2 ⟨base, hb, hp⟩, ?_⟩
    rw [(C98_scheme env.recording s base e u hp scheme).1 hn]
    exact hs

/-- C98. A base given as a string is taken without a validation error exactly if it is a text of the grammar without a base. -/
theorem C98_base (env : Env) (t : Str) (e : Encoding) :
    (∃ base, BaseIs env e (.str t) base) ↔ ErrorFree (HostSilent env.recording) (DigitsOK env) none t := by
  rw [show ErrorFree (HostSilent env.recording) (DigitsOK env) none t ↔ _ from (C98_exact env.recording t none e).symm]
  constructor
  · rintro ⟨b, r, rfl, hr⟩
    obtain ⟨base, hb, hp⟩ := (parseUrl_silent env t .none e r).1 hr
    cases hb
    exact ⟨r, hp⟩
  · rintro ⟨u, hu⟩
    exact ⟨some u, u, rfl, (parseUrl_silent env t .none e u).2 ⟨none, rfl, hu⟩⟩

/-- C98. The hosts of the grammar that start with "[" are the IPv6 addresses in brackets. -/
theorem C98_brackets (env : Env) (he : EnvOK env) (special : Bool) (t : Str) :
    HostSilent env special (c!"[" :: t) ↔ ∃ a p, t = a ++ u!"]" ∧ V6Text a p := by
  unfold HostSilent
  constructor
  · rintro ⟨x, hx⟩
    unfold hostParse at hx
    dsimp only at hx
    rw [if_pos rfl] at hx
    split at hx
    · cases hx
    · rename_i hl
      have ht : t = t.dropLast ++ u!"]" := by
        cases t with
        | nil => exact absurd (by decide) hl
        | cons c t =>
          have h1 := List.dropLast_concat_getLast (l := c :: t) (by simp)
          have h2 : (c :: t).getLast (by simp) = c!"]" := by
            have : (c!"[" :: c :: t).getLastD 0 = (c :: t).getLast (by simp) := by
              simp [List.getLastD]
            rw [← this]
            simpa using hl
          rw [h2] at h1
          exact h1.symm
      rcases hr : ipv6Parse env t.dropLast with ⟨r, log⟩
      cases r with
      | error err => rw [hr] at hx; cases hx
      | ok p => exact ⟨t.dropLast, p, ht, (C96_grammar env he _ p).1 (by rw [hr])⟩
  · rintro ⟨a, p, rfl, ha⟩
    have hr := (C96_grammar env he a p).2 ha
    have hb := hostParse_bracketed env a (!special)
    rcases hr' : ipv6Parse env a with ⟨r, log⟩
    rw [hr'] at hr hb
    cases hr
    have := ipv6Parse_ok_log hr'
    subst this
    exact ⟨.ipv6 p, hb⟩

/-- C98. The other hosts of the grammar, behind a scheme that is not special, are the texts of URL units without forbidden host code
points, the empty text among them. -/
theorem C98_opaque_host (env : Env) (h : Str) (hb : h.head? ≠ some c!"[") : HostSilent env false h ↔ URLUnits ForbiddenHostCP h := by
  constructor
  · rintro ⟨x, hx⟩
    cases h with
    | nil => exact .nil
    | cons c t =>
      have hc : c ≠ c!"[" := by rintro rfl; exact hb rfl
      unfold hostParse at hx
      dsimp only at hx
      rw [if_neg hc, if_pos (by rfl)] at hx
      unfold parseOpaqueHost at hx
      by_cases hf : (c :: t).any isForbiddenHost = true
      · rw [if_pos hf] at hx; cases hx
      · rw [if_neg hf] at hx
        have hl := congrArg Res.log hx
        change (if (urlUnitsError (fun _ => false) (c :: t)).isSome then _ else _) = _ at hl
        have hn : urlUnitsError (fun _ => false) (c :: t) = none := by
          cases hu : urlUnitsError (fun _ => false) (c :: t) with
          | none => rfl
          | some y => rw [hu] at hl; cases hl
        have hu := (urlUnitsError_iff (exc := fun _ => false) (fun _ _ => rfl) _).1 hn
        rw [List.any_eq_true] at hf
        have hok : ∀ x ∈ c :: t, ¬ ForbiddenHostCP x := fun x hx hx' => hf ⟨x, hx, (isForbiddenHost_iff x).2 hx'⟩
        revert hu hok
        generalize c :: t = z
        intro hu hok
        induction hu with
        | nil => exact .nil
        | point hc hx hs ih => exact .point hc (hok _ (by simp)) (ih fun x hx => hok x (by simp [hx]))
        | byte ha hb hs ih => exact .byte ha hb (ih fun x hx => hok x (by simp [hx]))
  · intro hu
    by_cases hne : h = []
    · subst hne
      exact ⟨.str [], rfl⟩
    · exact (fine_opaque env hne hu).2

/-! ### Examples -/

-- an empty segment behind the host: no valid URL string (C73), and a text of the grammar
example : ErrorFree (HostSilent exEnvStd3) (DigitsOK exEnvStd3) none u!"http://h//x" := by
  refine (C98_exact exEnvStd3 _ none .utf8).1 ⟨{ scheme := u!"http", host := some (.str u!"h"), path := .list [[], u!"x"] }, ?_⟩
  have h1 : (basicParse exEnvStd3 u!"http://h//x" none .utf8).res.toOption = some () := by decide +kernel
  have h2 : (basicParse exEnvStd3 u!"http://h//x" none .utf8).url = { scheme := u!"http", host := some (.str u!"h"), path := .list [[], u!"x"] } := by
    decide +kernel
  have h3 : (basicParse exEnvStd3 u!"http://h//x" none .utf8).log = [] := by decide +kernel
  revert h1 h2 h3
  rcases basicParse exEnvStd3 u!"http://h//x" none .utf8 with ⟨r, u, l⟩
  cases r with
  | error err => intro h; cases h
  | ok x => rintro - h2 h3; cases h2; cases h3; rfl
-- the grammar says so for a URL of a scheme that is not special: from the rules to the parser
example (env : Env) (hd : DigitsOK env 2) (e : Encoding) : ∃ u, basicParse env u!"x://h:80//a?#" none e = ⟨.ok (), u, []⟩ := by
  refine (C98_exact env _ none e).2 ⟨⟨by decide, by decide, by decide⟩, .inl ⟨u!"x", u!"//h:80//a?#", ⟨120, [], rfl, by decide, by simp⟩, rfl,
    .inl ⟨u!"h:80//a?#", rfl, ?_⟩, by decide⟩⟩
  unfold Spec.BehindSlashes
  rw [if_neg (by decide)]
  refine ⟨u!"h", u!":80", u!"//a?#", rfl, ⟨by decide, ?_⟩, ?_, by decide, ⟨⟨u!"//a", u!"?", u!"#", rfl, ?_, .inr ⟨[], rfl, .nil⟩,
    .inr ⟨[], rfl, .nil⟩⟩, by decide⟩, .inr ⟨u!"80", rfl, ⟨by decide, by decide⟩, hd, by decide, ?_⟩⟩
  · rintro a b hab
    have : c!":" ∈ u!"h" := by rw [hab]; simp
    exact absurd this (by decide)
  · exact (C98_opaque_host env _ (by decide)).2 (.point (by decide) (by decide) .nil)
  · exact .point (by decide) (by decide) (.point (by decide) (by decide) (.point (by decide) (by decide) .nil))
  · rintro ⟨x, y, hxy, -⟩
    have : c!"[" ∈ u!"h" := by rw [hxy]; simp
    exact absurd this (by decide)
-- from the parser to the grammar: texts that are not in it
example : ¬ ErrorFree (HostSilent exEnv) (DigitsOK exEnv) none u!"http://u@h/" ∧ ¬ ErrorFree (HostSilent exEnv) (DigitsOK exEnv) none u!"http:/h" ∧
    ¬ ErrorFree (HostSilent exEnv) (DigitsOK exEnv) none u!"file://C|/x" := by
  have g : ∀ s, (basicParse exEnv s none .utf8).log ≠ [] → ¬ ErrorFree (HostSilent exEnv) (DigitsOK exEnv) none s := by
    intro s hs h
    obtain ⟨u, hu⟩ := (C98_exact exEnv s none .utf8).2 h
    rw [hu] at hs
    exact hs rfl
  exact ⟨g _ (by decide +kernel), g _ (by decide +kernel), g _ (by decide +kernel)⟩

end Urlstd.Props
