/-
Property C65: the URL parser and the standard's state machine.
-/
import Verif.Lemmas.Machine5
import Verif.Lemmas.BareFile
import Verif.Props.Reference

namespace Urlstd.Props

open Spec (IsStr IsScalarStr Parses Outcome)

/-- a base record as the argument of `parse_url` -/
def baseArg : Option Rec → BaseArg
  | none => .none
  | some b => .record b

/-- C65 is false: the empty input against a "file" URL is the base in the standard, and has one more path segment in the
code. -/
theorem C65_false_file :
    Parses (hostOf exEnv) [] (some exFile) .utf8 (.ok exFile) ∧
      (parseUrl exEnv [] (.record exFile)).res ≠ .ok exFile := by
  refine ⟨?_, by rw [C36_false_file]; decide⟩
  exact Spec.exec_halts (n := 10) (by decide +kernel)

/-- C65 (partial). For an input without surrogates and a base that was obtained from the parser, `parse_url` ends as the
standard's basic URL parser ends: the state machine that reads one code point per run. It returns the machine's URL
when the machine succeeds, and raises a URL parse error when the machine returns failure.

Missing: an input that is empty or only "file:" against a "file" base (`C65_false_file`), and inputs longer than the
interpreter's limit for digits. An encoding other than UTF-8 must not spell a character as "&#…". The host parser is
the code's own; see C66 for it. -/
theorem C65_parser_partial (env : Env) (base : Option Rec) (hb : ∀ b, base = some b → Parsed env b) (s : Str)
    (hs : IsScalarStr s) (e : Encoding) (he : EncOK e) (hn : NoRef e) (hl : ¬ LongInput env s.length)
    (hf : ∀ b, base = some b → b.scheme = u!"file" → ¬ BareFile s) :
    (∀ u, (parseUrl env s (baseArg base) e).res = .ok u ↔ Parses (hostOf env) s base e (.ok u)) ∧
    ((∃ err, (parseUrl env s (baseArg base) e).res = .error err ∧ err.isURLParseError = true) ↔
      ∃ u, Parses (hostOf env) s base e (.failure u)) := by
  have hd : env.maxStrDigits = 0 ∨ s.length ≤ env.maxStrDigits := by
    by_cases h : env.maxStrDigits = 0
    · exact .inl h
    · right
      by_cases h2 : s.length ≤ env.maxStrDigits
      · exact h2
      · exact absurd ⟨h, .inl (by omega)⟩ hl
  have key := parses_eval hs he hn hd (fun b h => base_list (hb b h)) hf
  have hres : (parseUrl env s (baseArg base) e).res =
      Fin.toExcept (eval env e base none .schemeStart (prepared s none) {}) := by
    rw [← basicParse_toExcept]
    cases base <;> rfl
  have herr : ∀ err, (parseUrl env s (baseArg base) e).res = .error err → err.isURLParseError = true := by
    intro err h
    have hok : BaseOK env (baseArg base) := by
      cases base with
      | none => trivial
      | some b => exact hb b rfl
    rcases parseUrl_error hs.isStr hok he h with h | ⟨_, h⟩
    · exact h
    · have : (baseArg base).length = 0 := by cases base <;> rfl
      rw [this, Nat.max_zero] at h
      exact absurd h hl
  have hdet : ∀ o, Parses (hostOf env) s base e o ↔
      outcome (eval env e base none .schemeStart (prepared s none) {}) = o := by
    intro o
    constructor
    · intro h; exact key.unique h
    · intro h; rw [← h]; exact key
  rcases heval : eval env e base none .schemeStart (prepared s none) {} with ⟨r, v⟩
  rw [heval] at hres hdet
  cases r with
  | ok x =>
    have h1 : (parseUrl env s (baseArg base) e).res = .ok v := hres
    have h2 : outcome ((.ok x : Except Err Unit), v) = .ok v := rfl
    rw [h2] at hdet
    constructor
    · intro u
      rw [h1, hdet]
      constructor
      · intro h; cases h; rfl
      · intro h; cases h; rfl
    · constructor
      · rintro ⟨err, h, _⟩; rw [h1] at h; cases h
      · rintro ⟨u, h⟩; rw [hdet] at h; cases h
  | error err =>
    have h1 : (parseUrl env s (baseArg base) e).res = .error err := hres
    have h2 : outcome ((.error err : Except Err Unit), v) = .failure v := rfl
    rw [h2] at hdet
    constructor
    · intro u
      rw [h1, hdet]
      constructor
      · intro h; cases h
      · intro h; cases h
    · constructor
      · intro _; exact ⟨v, (hdet _).2 rfl⟩
      · intro _; exact ⟨err, h1, herr err h1⟩

/-- C65, what happens in the excluded case: the standard returns the base without its fragment, and the code appends an
empty segment to the path. So exactly the excluded inputs are parsed differently. -/
theorem C65_bare_file (env : Env) (b : Rec) (hb : Parsed env b) (hf : b.scheme = u!"file") (s : Str) (hs : BareFile s)
    (e : Encoding) :
    ∃ segs, b.path = .list segs ∧
      Parses (hostOf env) s (some b) e (.ok { b with fragment := none }) ∧
      (parseUrl env s (.record b) e).res = .ok { b with path := .list (segs ++ [[]]), fragment := none } := by
  have hw := hb.wf (hostSpec_true env)
  obtain ⟨segs, hp⟩ := base_list hb (by rw [hf]; decide)
  have hc := hw.auth.bare (.inr (.inr hf))
  exact ⟨segs, hp, parses_bareFile hs hp hf hc _, parse_bareFile hs hp hf hc⟩

example : BareFile u!" F\tiLe:\n" := .inr (by decide)

/-- C65 (partial, as above) for a base given as a string: the base is parsed first, and its failure is the result. -/
theorem C65_string_base_partial (env : Env) (b s : Str) (hbs : IsScalarStr b) (hs : IsScalarStr s) (e : Encoding)
    (he : EncOK e) (hn : NoRef e) (hlb : ¬ LongInput env b.length) (hl : ¬ LongInput env s.length)
    (hf : ∀ r, Parses (hostOf env) b none e (.ok r) → r.scheme = u!"file" → ¬ BareFile s) :
    (∀ u, (parseUrl env s (.str b) e).res = .ok u ↔
      ∃ r, Parses (hostOf env) b none e (.ok r) ∧ Parses (hostOf env) s (some r) e (.ok u)) ∧
    ((∃ err, (parseUrl env s (.str b) e).res = .error err ∧ err.isURLParseError = true) ↔
      (∃ u, Parses (hostOf env) b none e (.failure u)) ∨
        ∃ r u, Parses (hostOf env) b none e (.ok r) ∧ Parses (hostOf env) s (some r) e (.failure u)) := by
  obtain ⟨b1, b2⟩ := C65_parser_partial env none (by simp) b hbs e he hn hlb (by simp)
  have hst := parseUrl_str env s b e
  have hb0 : (parseUrl env b (baseArg none) e).res = (basicParse env b none e).toExcept := rfl
  rw [← hb0] at hst
  cases hbr : (parseUrl env b (baseArg none) e).res with
  | error err =>
    rw [hbr] at hst b1 b2
    have hno : ∀ r, ¬ Parses (hostOf env) b none e (.ok r) := fun r h => by have := (b1 r).2 h; cases this
    rw [hst]
    constructor
    · intro u
      constructor
      · intro h; cases h
      · rintro ⟨r, h, _⟩; exact absurd h (hno r)
    · constructor
      · intro h; exact .inl (b2.1 h)
      · rintro (h | ⟨r, u, h, _⟩)
        · exact b2.2 h
        · exact absurd h (hno r)
  | ok r =>
    rw [hbr] at hst b1 b2
    have hp : Parsed env r := .alone (s := b) hbs.isStr he hbr
    have hr : Parses (hostOf env) b none e (.ok r) := (b1 r).1 rfl
    have hru : ∀ r', Parses (hostOf env) b none e (.ok r') → r' = r := fun r' h => by
      have := hr.unique h; cases this; rfl
    have hrf : ∀ u, ¬ Parses (hostOf env) b none e (.failure u) := fun u h => by have := hr.unique h; cases this
    obtain ⟨s1, s2⟩ := C65_parser_partial env (some r) (by rintro _ ⟨⟩; exact hp) s hs e he hn hl (by
      rintro _ ⟨⟩ h; exact hf r hr h)
    have hst : (parseUrl env s (.str b) e).res = (parseUrl env s (baseArg (some r)) e).res := hst
    rw [hst]
    constructor
    · intro u
      rw [s1]
      constructor
      · intro h; exact ⟨r, hr, h⟩
      · rintro ⟨r', h, h'⟩; rw [hru r' h] at h'; exact h'
    · rw [s2]
      constructor
      · rintro ⟨u, h⟩; exact .inr ⟨r, u, hr, h⟩
      · rintro (⟨u, h⟩ | ⟨r', u, h, h'⟩)
        · exact absurd h (hrf u)
        · rw [hru r' h] at h'; exact ⟨u, h'⟩

theorem exEnv_short {n : Nat} (h : 8 * n ≤ 4300) : ¬ LongInput exEnv n := by
  rintro ⟨-, h1 | ⟨d, a, log, hd, ha, h1⟩⟩
  · have : exEnv.maxStrDigits = 4300 := rfl
    omega
  · have : a.length = d.length := by
      unfold domainToAscii exEnv at ha
      by_cases hd : d.all (· < 128) = true
      · simp only [hd, if_true] at ha
        by_cases he : (lower d).isEmpty = true
        · simp [he, maskErrors, Res.err] at ha
        · simp only [he] at ha
          simp [maskErrors, Res.ok] at ha
          rw [← ha.1]
          unfold lower
          rw [List.length_map]
      · simp only [hd] at ha; simp [Res.err] at ha
    have : exEnv.maxStrDigits = 4300 := rfl
    omega

-- a relative reference with credentials, a port, dot segments, a query and a fragment
example : (parseUrl exEnv u!"//u:p@h:8080/a/../b?q#é" (baseArg (some exRecord)) .utf8).res =
    .ok { scheme := u!"http", username := u!"u", password := u!"p", host := some (.str u!"h"), port := some 8080
          path := .list [u!"b"], query := some u!"q", fragment := some u!"%C3%A9" } :=
  ((C65_parser_partial exEnv (some exRecord) (by rintro _ ⟨⟩; exact exRecord_parsed) _
    (by unfold IsScalarStr Spec.Surrogate; decide) .utf8 trivial trivial (exEnv_short (by decide))
    (by rintro _ ⟨⟩ h; exact absurd h (by decide))).1 _).2 (Spec.exec_halts (n := 200) (by decide +kernel))
-- a "file" base, and a reference that is not bare
example : ∀ b, some exFile = some b → b.scheme = u!"file" → ¬ BareFile u!"file:C|/x" := by
  rintro _ ⟨⟩ _
  unfold BareFile
  decide
-- an encoding
example : NoRef (.other fun c => if c < 256 then some [c] else none) := by
  intro c bs h
  dsimp only at h
  by_cases hc : c < 256
  · rw [if_pos hc] at h; cases h; simp
  · rw [if_neg hc] at h; cases h
-- an input on which the machine fails
example : ∃ u, Parses (hostOf exEnv) u!"http://h:65536" none .utf8 (.failure u) :=
  ⟨_, Spec.exec_halts (n := 200) (o := .failure { scheme := u!"http", host := some (.str u!"h") }) (by decide +kernel)⟩

end Urlstd.Props
