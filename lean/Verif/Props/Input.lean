/-
Properties C31-C35: ignored characters, schemes, slashes, absolute URLs.
-/
import Verif.Lemmas.SchemeStart
import Verif.Props.Parsed

namespace Urlstd.Props

open Spec (IsStr SchemeText TabOrNewline C0OrSpace toLower slashes Special)

/-! ### C31 -/

/-- C31. Parsing a string gives the same result as parsing it with every tab, line feed and carriage
return removed. -/
theorem C31_tabs_newlines_ignored (env : Env) (s : Str) (base : BaseArg) (e : Encoding) :
    (parseUrl env (s.filter fun c => ¬ TabOrNewline c) base e).res = (parseUrl env s base e).res := by
  refine parseUrl_prepared ?_ base e
  rw [show (s.filter fun c => ¬ TabOrNewline c) = removeTabNewline s from ?_, prepared_tabs]
  unfold removeTabNewline
  congr 1
  funext c
  simp [TabOrNewline, isTabNewline, Bool.or_assoc]
  rfl

/-- C31 for a base given as a string. -/
theorem C31_base_tabs_newlines_ignored (env : Env) (s b : Str) (e : Encoding) :
    (parseUrl env s (.str (b.filter fun c => ¬ TabOrNewline c)) e).res = (parseUrl env s (.str b) e).res := by
  refine parseUrl_prepared_base ?_ e
  rw [show (b.filter fun c => ¬ TabOrNewline c) = removeTabNewline b from ?_, prepared_tabs]
  unfold removeTabNewline
  congr 1
  funext c
  simp [TabOrNewline, isTabNewline, Bool.or_assoc]
  rfl

example : (parseUrl exEnv u!"ht\ntp:\t//ex.c\rom/a\n").res = (parseUrl exEnv u!"http://ex.com/a").res :=
  (C31_tabs_newlines_ignored exEnv u!"ht\ntp:\t//ex.c\rom/a\n" .none .utf8).symm
example : (parseUrl exEnv u!"ht\ntp:\t//ex.c\rom/a\n").res =
    .ok { scheme := u!"http", host := some (.str u!"ex.com"), path := .list [u!"a"] } := by decide +kernel

/-! ### C32 -/

/-- C32. C0 control and space characters before and after an input do not change the result. -/
theorem C32_surrounding_space_ignored (env : Env) (s pre post : Str) (hpre : ∀ c ∈ pre, C0OrSpace c)
    (hpost : ∀ c ∈ post, C0OrSpace c) (base : BaseArg) (e : Encoding) :
    (parseUrl env (pre ++ s ++ post) base e).res = (parseUrl env s base e).res := by
  have key : ∀ c, C0OrSpace c → isC0OrSpace c = true := by
    intro c h
    simp only [C0OrSpace, isC0OrSpace] at *
    simp
    omega
  exact parseUrl_prepared (prepared_surround (fun c h => key c (hpre c h)) fun c h => key c (hpost c h)) base e

/-- C32 for a base given as a string. -/
theorem C32_base_surrounding_space_ignored (env : Env) (s b pre post : Str) (hpre : ∀ c ∈ pre, C0OrSpace c)
    (hpost : ∀ c ∈ post, C0OrSpace c) (e : Encoding) :
    (parseUrl env s (.str (pre ++ b ++ post)) e).res = (parseUrl env s (.str b) e).res := by
  have key : ∀ c, C0OrSpace c → isC0OrSpace c = true := by
    intro c h
    simp only [C0OrSpace, isC0OrSpace] at *
    simp
    omega
  exact parseUrl_prepared_base (prepared_surround (fun c h => key c (hpre c h)) fun c h => key c (hpost c h)) e

example : (parseUrl exEnv (u!"\x00 " ++ u!"http://ex.com/a b" ++ u!" \n\x1F")).res =
    .ok { scheme := u!"http", host := some (.str u!"ex.com"), path := .list [u!"a%20b"] } := by
  rw [C32_surrounding_space_ignored exEnv u!"http://ex.com/a b" u!"\x00 " u!" \n\x1F" (by decide) (by decide)]
  decide +kernel

/-! ### C33 -/

/-- C33. Two inputs that differ in the letter case of the scheme only have the same result. -/
theorem C33_scheme_case (env : Env) (sc sc' rest : Str) (h : SchemeText sc) (hc : toLower sc = toLower sc')
    (base : BaseArg) (e : Encoding) :
    (parseUrl env (sc ++ u!":" ++ rest) base e).res = (parseUrl env (sc' ++ u!":" ++ rest) base e).res := by
  have key : ∀ base : Option Rec, (basicParse env (sc ++ u!":" ++ rest) base e).toExcept =
      (basicParse env (sc' ++ u!":" ++ rest) base e).toExcept := by
    intro base
    rw [List.append_assoc, List.append_assoc]
    show (basicParse env (sc ++ 58 :: rest) base e).toExcept = (basicParse env (sc' ++ 58 :: rest) base e).toExcept
    rw [parse_scheme h, parse_scheme (h.congr hc), hc]
  cases base with
  | none => exact key none
  | record b => exact key (some b)
  | str b =>
    rw [parseUrl_str, parseUrl_str]
    cases (basicParse env b none e).toExcept with
    | error err => rfl
    | ok r => exact key (some r)

example : (parseUrl exEnv (u!"hTTp" ++ u!":" ++ u!"//ex.com/A")).res =
    .ok { scheme := u!"http", host := some (.str u!"ex.com"), path := .list [u!"A"] } := by
  rw [C33_scheme_case exEnv u!"hTTp" u!"http" u!"//ex.com/A" ⟨c!"h", u!"TTp", rfl, by decide, by decide⟩ (by decide)]
  decide +kernel

/-! ### C34 -/

/-- C34. In an input that starts with a special scheme, the backslashes before the query and fragment
can be replaced by slashes. -/
theorem C34_backslash_is_slash (env : Env) (sc rest : Str) (h : SchemeText sc) (hsp : Special (toLower sc))
    (base : BaseArg) (e : Encoding) :
    (parseUrl env (sc ++ u!":" ++ slashes rest) base e).res = (parseUrl env (sc ++ u!":" ++ rest) base e).res := by
  have key : ∀ base : Option Rec, (basicParse env (sc ++ u!":" ++ slashes rest) base e).toExcept =
      (basicParse env (sc ++ u!":" ++ rest) base e).toExcept := by
    intro base
    rw [List.append_assoc, List.append_assoc]
    exact parse_slashes h ((special_iff _).2 hsp) rest
  cases base with
  | none => exact key none
  | record b => exact key (some b)
  | str b =>
    rw [parseUrl_str, parseUrl_str]
    cases (basicParse env b none e).toExcept with
    | error err => rfl
    | ok r => exact key (some r)

/-- C34 for any choice of the backslashes that are replaced. -/
theorem C34_any_backslash_is_slash (env : Env) (sc rest rest' : Str) (h : SchemeText sc) (hsp : Special (toLower sc))
    (hr : slashes rest = slashes rest') (base : BaseArg) (e : Encoding) :
    (parseUrl env (sc ++ u!":" ++ rest) base e).res = (parseUrl env (sc ++ u!":" ++ rest') base e).res := by
  rw [← C34_backslash_is_slash env sc rest h hsp, hr, C34_backslash_is_slash env sc rest' h hsp]

example : (parseUrl exEnv (u!"http" ++ u!":" ++ u!"\\/u@ex.com\\a/..\\b?\\#\\")).res =
    (parseUrl exEnv (u!"http" ++ u!":" ++ u!"//u@ex.com/a/../b?\\#\\")).res :=
  C34_any_backslash_is_slash exEnv _ _ _ ⟨c!"h", u!"ttp", rfl, by decide, by decide⟩ ⟨some 80, by decide⟩ (by decide) _ _
example : (parseUrl exEnv (u!"http" ++ u!":" ++ u!"\\/u@ex.com\\a/..\\b?\\#\\")).res =
    .ok { scheme := u!"http", username := u!"u", host := some (.str u!"ex.com"), path := .list [u!"b"],
          query := some u!"\\", fragment := some u!"\\" } := by decide +kernel

/-! ### C35 -/

/-- C35. An input that starts with a scheme which is not special, or is not the base's scheme, has the
same result with any base record as without a base. -/
theorem C35_absolute_ignores_base (env : Env) (sc rest : Str) (h : SchemeText sc) (b : Rec)
    (hb : ¬ Special (toLower sc) ∨ toLower sc ≠ b.scheme) (e : Encoding) :
    (parseUrl env (sc ++ u!":" ++ rest) (.record b) e).res = (parseUrl env (sc ++ u!":" ++ rest) .none e).res := by
  rw [parseUrl_record, parseUrl_none, List.append_assoc]
  refine parse_absolute h ?_ rest
  rcases hb with hb | hb
  · left
    cases hs : isSpecialScheme (toLower sc) with
    | false => rfl
    | true => exact absurd ((special_iff _).1 hs) hb
  · exact .inr (Ne.symm hb)

/-- C35 for a base given as a string that parses. -/
theorem C35_absolute_ignores_base_string (env : Env) (sc rest : Str) (h : SchemeText sc) (b : Str) (r : Rec)
    (e : Encoding) (hr : (parseUrl env b .none e).res = .ok r)
    (hb : ¬ Special (toLower sc) ∨ toLower sc ≠ r.scheme) :
    (parseUrl env (sc ++ u!":" ++ rest) (.str b) e).res = (parseUrl env (sc ++ u!":" ++ rest) .none e).res := by
  rw [parseUrl_str]
  rw [parseUrl_none] at hr
  rw [hr]
  exact C35_absolute_ignores_base env sc rest h r hb e

example : (parseUrl exEnv (u!"https" ++ u!":" ++ u!"//h/x") (.record exRecord)).res =
    (parseUrl exEnv (u!"https" ++ u!":" ++ u!"//h/x") .none).res :=
  C35_absolute_ignores_base exEnv _ _ ⟨c!"h", u!"ttps", rfl, by decide, by decide⟩ _ (.inr (by decide)) _

/-- the condition on the scheme is needed: with the base's own special scheme the base is used -/
example : (parseUrl exEnv u!"http:x" (.record exRecord)).res ≠ (parseUrl exEnv u!"http:x" .none).res := by
  decide +kernel

end Urlstd.Props
