/-
Property C89: what a text denotes does not depend on the settings of the interpreter.
-/
import Verif.Lemmas.Settings2
import Verif.Props.Denote
import Verif.Props.Numeral
import Verif.Props.Parsed
import Verif.Props.Machine

namespace Urlstd.Props

open Spec (IsStr SameLibrary DelOK HiddenNumber GoodBase)

/-- CPython without a limit for digits, and with the smallest that it accepts -/
def exUnlimited : Env := { exEnv with maxStrDigits := 0 }
def exLimited : Env := { exEnv with maxStrDigits := 640 }

/-- C89 is false: "+", 640 zeros and a one are an IPv4 address for an interpreter without limit for digits, and a domain for one with
the limit 640; with 641 ones, the text is no URL for the first and a URL with a domain for the second. -/
theorem C89_false :
    (parseUrl exUnlimited (u!"http://+" ++ List.replicate 640 c!"0" ++ u!"1")).res =
      .ok { scheme := u!"http", host := some (.ipv4 1), path := .list [[]] } ∧
    (parseUrl exLimited (u!"http://+" ++ List.replicate 640 c!"0" ++ u!"1")).res =
      .ok { scheme := u!"http", host := some (.str (u!"+" ++ List.replicate 640 c!"0" ++ u!"1")), path := .list [[]] } ∧
    (parseUrl exUnlimited (u!"http://+" ++ List.replicate 641 c!"1")).res = .error .ipv4Parse ∧
    (parseUrl exLimited (u!"http://+" ++ List.replicate 641 c!"1")).res =
      .ok { scheme := u!"http", host := some (.str (u!"+" ++ List.replicate 641 c!"1")), path := .list [[]] } := by
  decide +kernel

/-- C89 for inputs that no limit applies to: the same record or the same exception, whatever the limits are and whether validation
errors are recorded or not. -/
theorem C89_within_limits (env env' : Env) (h : SameLibrary env env') (s : Str) (hs : IsStr s) (base : Option Rec) (hb : GoodBase base)
    (h1 : ¬ LongInput env s.length) (h2 : ¬ LongInput env' s.length) :
    (parseUrl env s (baseArg base)).res = (parseUrl env' s (baseArg base)).res := by
  symm
  rw [C83_denotes env' s base hs hb]
  refine denotes_short ?_ ((C83_denotes env s base hs hb _).1 rfl)
  rw [prepared_std]
  have hl := prepared_length_le s
  exact agree_short h (fun c hc => (prepared_ok hs).str c hc) (fun hh => h1 (hh.mono hl)) fun hh => h2 (hh.mono hl)

/-- what is said about the end of a domain in the model's terms -/
theorem hidden_iff {env env' : Env} (hd : DelOK env) (hd' : DelOK env') (a : Str) :
    HiddenNumber env env' a ↔ isEndsInANumber env' a = true ∧ isEndsInANumber env a = false := by
  unfold HiddenNumber
  rw [← C88_ends env hd, ← C88_ends env' hd', Bool.not_eq_true]

theorem settings_other {env env' : Env} (h : SameLibrary env env') {s : Str} (hs : IsStr s) {base : Option Rec} (hb : GoodBase base)
    {u : Rec} (hu : (parseUrl env s (baseArg base)).res = .ok u) : Otherwise env env' u (parseUrl env' s (baseArg base)).res := by
  obtain ⟨y, h1, h2⟩ := denotes_same h ((C83_denotes env s base hs hb _).1 hu)
  rw [← (C83_denotes env' s base hs hb y).2 h1] at h2
  exact h2

/-- C89 for inputs of any length that both accept (partial: see `C89_false`): the URLs are the same, or differ in the host only, which
is a domain for one, since its last part is a number with more digits than that one converts, and an address for the other. -/
theorem C89_accepted_partial (env env' : Env) (h : SameLibrary env env') (hd : DelOK env) (hd' : DelOK env') (s : Str) (hs : IsStr s)
    (base : Option Rec) (hb : GoodBase base) (u v : Rec) (hu : (parseUrl env s (baseArg base)).res = .ok u)
    (hv : (parseUrl env' s (baseArg base)).res = .ok v) :
    u = v ∨ (∃ a n, u.host = some (.str a) ∧ v = { u with host := some (.ipv4 n) } ∧ HiddenNumber env env' a) ∨
      ∃ a n, v.host = some (.str a) ∧ u = { v with host := some (.ipv4 n) } ∧ HiddenNumber env' env a := by
  have := settings_other h hs hb hu
  rw [hv] at this
  simp only [hidden_iff hd hd', hidden_iff hd' hd]
  rcases this with e | e | ⟨-, ⟨e, -⟩ | ⟨a, n, hh, e, h1, h2⟩ | ⟨a, n, hh, e, h1, h2⟩⟩
  · cases e; exact .inl rfl
  · cases e
  · cases e
  · cases e
    exact .inr (.inr ⟨a, n, rfl, by rw [← hh], h1, h2⟩)
  · cases e
    exact .inr (.inl ⟨a, n, hh, rfl, h1, h2⟩)

/-- C89 for an interpreter without limit, exactly: it accepts what one with a limit accepts, with the same result,
unless the host is a domain for the other only because of the limit. A limit can only reject otherwise. -/
theorem C89_unlimited_exact (env env' : Env) (h : SameLibrary env env') (hd : DelOK env) (hd' : DelOK env')
    (h0 : env'.maxStrDigits = 0) (s : Str) (hs : IsStr s) (base : Option Rec) (hb : GoodBase base) (hb' : ∀ b, base = some b → Parsed env' b)
    (u : Rec) (hu : (parseUrl env s (baseArg base)).res = .ok u) :
    (parseUrl env' s (baseArg base)).res = .ok u ↔
      ¬ (Spec.isSpecial u.scheme = true ∧ ∃ a, u.host = some (.str a) ∧ HiddenNumber env env' a) := by
  simp only [hidden_iff hd hd']
  constructor
  · rintro hv ⟨hsp, a, ha, h1, h2⟩
    have hp : Parsed env' u := by
      cases base with
      | none => exact .alone (e := .utf8) hs trivial hv
      | some b => exact .withRecord (e := .utf8) hs (hb' b rfl) trivial hv
    have := (hp.wf (hostSpec_ends env')).auth.host _ ha
    rw [this (by rw [← isSpecial_rec, hsp]; rfl) a rfl] at h1
    cases h1
  · intro hn
    rcases settings_other h hs hb hu with e | e | ⟨hsp, ⟨e, ⟨n, hh, hm⟩ | ⟨a, hh, h1, h2⟩⟩ | ⟨a, n, hh, e, h1, h2⟩ | ⟨a, n, hh, e, h1, h2⟩⟩
    · exact e
    · refine absurd (C21_only_URLParseError_partial env' h0 s (baseArg base) .utf8 _ hs ?_ trivial e) (by decide)
      cases base with
      | none => trivial
      | some b => exact hb' b rfl
    · exact absurd h0 hm
    · exact absurd ⟨hsp, a, hh, h1, h2⟩ hn
    · rw [isEndsInANumber_same h h0 h1] at h2
      cases h2
    · exact absurd ⟨hsp, a, hh, h1, h2⟩ hn

/-- C65 without a limit on the length (partial: accepted texts, without a base): a URL that the parser returns is the one of the
standard's state machine, unless its host is a domain only because of the limit for digits. -/
theorem C65_any_length_partial (env : Env) (hd : DelOK env) (s : Str) (hs : Spec.IsScalarStr s) (u : Rec)
    (hu : (parseUrl env s).res = .ok u)
    (hn : ¬ (Spec.isSpecial u.scheme = true ∧ ∃ a, u.host = some (.str a) ∧ HiddenNumber env { env with maxStrDigits := 0 } a)) :
    Spec.Parses (hostOf { env with maxStrDigits := 0 }) s none .utf8 (.ok u) := by
  have hb : GoodBase none := by intro b h; cases h
  have hs' : IsStr s := fun c hc => (hs c hc).1
  have := (C89_unlimited_exact env { env with maxStrDigits := 0 } ⟨rfl, rfl, rfl⟩ hd hd rfl s hs' none hb (by simp) u hu).2 hn
  exact ((C65_parser_partial { env with maxStrDigits := 0 } none (by simp) s hs .utf8 trivial trivial (fun h => h.1 rfl)
    (by simp)).1 u).1 this

-- the hypotheses are met by the interpreters and the text of `C89_false`
theorem exSettings : SameLibrary exLimited exUnlimited := ⟨rfl, rfl, rfl⟩
example : (parseUrl exLimited u!"http://h:80/" (baseArg none)).res = (parseUrl exUnlimited u!"http://h:80/" (baseArg none)).res := by
  refine C89_within_limits _ _ exSettings _ (by decide) none (by intro b h; cases h) ?_ fun h => h.1 rfl
  rintro ⟨-, h | ⟨d, a, log, h1, h2, h3⟩⟩
  · exact absurd h (by decide)
  · have : a.length = d.length := by
      unfold domainToAscii exLimited exEnv at h2
      by_cases hd' : d.all (· < 128) = true
      · simp only [hd', if_true] at h2
        by_cases he : (lower d).isEmpty = true
        · simp [he, maskErrors, Res.err] at h2
        · simp only [he] at h2
          simp [maskErrors, Res.ok] at h2
          rw [← h2.1]
          simp [lower]
      · simp only [hd'] at h2; simp [Res.err] at h2
    have e : exLimited.maxStrDigits = 640 := rfl
    have e' : (u!"http://h:80/").length = 12 := rfl
    omega
example : HiddenNumber exLimited exUnlimited (u!"+" ++ List.replicate 640 c!"0" ++ u!"1") := by
  rw [hidden_iff (env := exLimited) (env' := exUnlimited) exEnv_del exEnv_del]
  decide +kernel

end Urlstd.Props
