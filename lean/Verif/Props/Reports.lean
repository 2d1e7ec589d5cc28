/-
Property C68: the validation errors of the URL parser, of the host parser, and the verdict of `URLValidator.is_valid`.
-/
import Verif.Lemmas.HostReports
import Verif.Props.HostParser
import Verif.Props.Validity

namespace Urlstd.Props

open Spec (IsScalarStr Parses ParseAsks ParseReports RegularHost HostTally PipeDrive ExtraUnit hostParser hostReports)

/-- the error types in a validity object after the given calls of `prepend`, oldest first -/
def recorded (log : Log) : List VErr := (ValidityState.ofLog log).errorTypes.reverse

/-! ### C68: hosts -/

/-- C68 is false for hosts: an opaque host with two faults is reported once; an IPv4 address that is out of range is
reported once more as an undefined error; an IPv6 address with two faults is reported for the second one. -/
theorem C68_false_host :
    (recorded (hostParse exEnv u!"é`%x" true).log = [.invalidURLUnit] ∧
      hostReports (exEnv.nameToAscii false) u!"é`%x" true = [.invalidURLUnit, .invalidURLUnit]) ∧
    (recorded (hostParse exEnv u!"1.2.3.256" false).log = [.ipv4OutOfRangePart, .undefined] ∧
      hostReports (exEnv.nameToAscii false) u!"1.2.3.256" false = [.ipv4OutOfRangePart]) ∧
    (recorded (hostParse exEnv u!"[::1.256.x.4]" false).log = [.ipv4InIPv6InvalidCodePoint] ∧
      hostReports (exEnv.nameToAscii false) u!"[::1.256.x.4]" false = [.ipv4InIPv6OutOfRangePart]) := by
  decide +kernel

/-- C68 (partial), hosts. What `Host.parse` records are the validation errors of the standard's host parser in the same
order, apart from the three differences that `HostTally` lists.

Missing: those differences (`C68_false_host`), the texts of C66, and hosts that are longer than the interpreter's limit
for digits. -/
theorem C68_host_reports_partial (env : Env) (he : EnvOK env) (s : Str) (hs : IsScalarStr s) (isOpaque : Bool)
    (hne : s ≠ [] ∨ isOpaque = true)
    (h : RegularHost (Spec.domainToASCII (env.nameToAscii false)) s isOpaque) (hl : ¬ LongInput env s.length) :
    HostTally s isOpaque (hostParser (env.nameToAscii false) s isOpaque = none)
      (hostReports (env.nameToAscii false) s isOpaque) (recorded (hostParse env s isOpaque).log) := by
  unfold recorded
  rw [types_ofLog, ← hostParse_std he hs hne h]
  exact hostParse_reports he hs hne h hl

/-- C68 (partial), hosts. For a host that is parsed, other than an opaque host with two faults, it is the same list. -/
theorem C68_parsed_host_partial (env : Env) (he : EnvOK env) (s : Str) (hs : IsScalarStr s) (isOpaque : Bool)
    (hne : s ≠ [] ∨ isOpaque = true)
    (h : RegularHost (Spec.domainToASCII (env.nameToAscii false)) s isOpaque) (hl : ¬ LongInput env s.length)
    (host : Host) (hh : (hostParse env s isOpaque).res = .ok host)
    (h2 : hostReports (env.nameToAscii false) s isOpaque ≠ [.invalidURLUnit, .invalidURLUnit]) :
    recorded (hostParse env s isOpaque).log = hostReports (env.nameToAscii false) s isOpaque := by
  have ht := C68_host_reports_partial env he s hs isOpaque hne h hl
  rw [← C66_host_parser_partial env he s hs isOpaque hne h] at ht
  have hv : (hostParse env s isOpaque).val = some host := by unfold Res.val; rw [hh]
  rw [hv] at ht
  generalize hostReports (env.nameToAscii false) s isOpaque = r at ht h2
  generalize recorded (hostParse env s isOpaque).log = t at ht
  cases ht with
  | same _ _ => rfl
  | ipv6 _ hf => cases hf
  | twoUnits => exact absurd rfl h2
  | range _ hf => cases hf

/-- C68, hosts. For a host that does not start with "[" it is the same list exactly if the host is no opaque host with two faults, and no
IPv4 address that is refused because it is out of range. -/
theorem C68_host_exact (env : Env) (he : EnvOK env) (s : Str) (hs : IsScalarStr s) (isOpaque : Bool)
    (hne : s ≠ [] ∨ isOpaque = true) (hb : s.head? ≠ some c!"[")
    (h : RegularHost (Spec.domainToASCII (env.nameToAscii false)) s isOpaque) (hl : ¬ LongInput env s.length) :
    recorded (hostParse env s isOpaque).log = hostReports (env.nameToAscii false) s isOpaque ↔
      ¬ (isOpaque = true ∧ hostReports (env.nameToAscii false) s isOpaque = [.invalidURLUnit, .invalidURLUnit]) ∧
      ¬ (isOpaque = false ∧ hostParser (env.nameToAscii false) s isOpaque = none ∧
        (hostReports (env.nameToAscii false) s isOpaque).getLast? = some .ipv4OutOfRangePart) := by
  have ht := C68_host_reports_partial env he s hs isOpaque hne h hl
  generalize hr : hostReports (env.nameToAscii false) s isOpaque = r at ht ⊢
  generalize recorded (hostParse env s isOpaque).log = t at ht
  cases ht with
  | same h1 h2 => exact ⟨fun _ => ⟨fun h => h1 h.1 h.2, fun h => h2 h.1 h.2.1 h.2.2⟩, fun _ => rfl⟩
  | ipv6 h _ => exact absurd h hb
  | twoUnits hm => exact ⟨fun h => (by cases h), fun h => absurd ⟨hm, rfl⟩ h.1⟩
  | range hm hf =>
    refine ⟨fun h => ?_, fun h => absurd ⟨hm, hf, by simp⟩ h.2⟩
    have := congrArg List.length h
    simp at this

-- an opaque host with one fault, and one with two of them
example : recorded (hostParse exEnv u!"a%3x" true).log = hostReports (exEnv.nameToAscii false) u!"a%3x" true ∧
    recorded (hostParse exEnv u!"a\"%" true).log ≠ hostReports (exEnv.nameToAscii false) u!"a\"%" true := by
  refine ⟨(C68_host_exact exEnv (.inr (by decide)) _ (by unfold IsScalarStr Spec.Surrogate; decide) true (.inr rfl) (by decide)
    ⟨fun x h => (by cases h), fun h => (by cases h)⟩ (exEnv_short (by decide))).2 (by decide +kernel), fun h => ?_⟩
  exact ((C68_host_exact exEnv (.inr (by decide)) _ (by unfold IsScalarStr Spec.Surrogate; decide) true (.inr rfl) (by decide)
    ⟨fun x h => (by cases h), fun h => (by cases h)⟩ (exEnv_short (by decide))).1 h).1 (by decide +kernel)

/-! ### C68: URLs -/

/-- C68 is false for URLs: the "|" of a Windows drive letter that stands where the host of a "file" URL would be is
reported by the code and not by the standard. -/
theorem C68_false_drive :
    recorded (parseUrl exEnv u!"file://C|/").log = [.fileInvalidWindowsDriveLetterHost, .invalidURLUnit] ∧
    ParseReports (hostOf exEnv) (fun t m => recorded (hostParse exEnv t m).log) u!"file://C|/" none .utf8
      [.fileInvalidWindowsDriveLetterHost] := by
  refine ⟨by decide +kernel, [.fileInvalidWindowsDriveLetterHost], by decide +kernel, ?_⟩
  exact Spec.execReports_reports (n := 100) (by decide +kernel)

theorem recorded_eq (log : Log) : recorded log = types log := types_ofLog log

theorem digits_of {env : Env} {n : Nat} (hl : ¬ LongInput env n) : env.maxStrDigits = 0 ∨ n ≤ env.maxStrDigits := by
  by_cases h : env.maxStrDigits = 0
  · exact .inl h
  · right
    by_cases h2 : n ≤ env.maxStrDigits
    · exact h2
    · exact absurd ⟨h, .inl (by omega)⟩ hl

/-- no exception other than a URL parse error, with and without recording -/
theorem parse_noPython {env env' : Env} (hv : ∀ n, LongInput env' n → LongInput env n) {s : Str} (hs : Spec.IsStr s)
    {base : Option Rec} (hb : ∀ b, base = some b → Parsed env b) {e : Encoding} (he : EncOK e)
    (hl : ¬ LongInput env s.length) {err : Err} (h : (basicParse env' s base e).toExcept = .error err) :
    err.isURLParseError = true := by
  rcases basicParse_error (k := true) (hostSpec_true env') he (fun b h => ((hb b h).wf (hostSpec_true env)).weak) hs h with h | ⟨_, h⟩
  · exact h
  · exact absurd (hv _ h) hl

theorem parseUrl_baseArg (env : Env) (s : Str) (base : Option Rec) (e : Encoding) :
    parseUrl env s (baseArg base) e = ⟨(basicParse env s base e).toExcept, (basicParse env s base e).log⟩ := by
  cases base <;> simp [parseUrl, baseArg]

/-- C68 (partial), URLs. While it parses, the code records the validation errors that the standard's state machine
reports, in the same order. The host parser and what it reports are the code's own here.

Missing: the drive letter of `C68_false_drive` (`PipeDrive`), where the code has one error more, and inputs longer
than the interpreter's limit for digits. -/
theorem C68_machine_partial (env : Env) (base : Option Rec) (hb : ∀ b, base = some b → Parsed env b) (s : Str)
    (hs : Spec.IsStr s) (e : Encoding) (he : EncOK e) (hl : ¬ LongInput env s.length) :
    ∃ l, ParseReports (hostOf env) (fun t m => recorded (hostParse env t m).log) s base e l ∧
      (¬ PipeDrive base (Spec.dropTabs (Spec.stripC0 s)) ∧ recorded (parseUrl env s (baseArg base) e).log = l ∨
        (PipeDrive base (Spec.dropTabs (Spec.stripC0 s)) ∧ ExtraUnit l (recorded (parseUrl env s (baseArg base) e).log))) := by
  have hrep : (fun t m => recorded (hostParse env t m).log) = reportOf env := by
    funext t m
    exact recorded_eq _
  rw [hrep, parseUrl_baseArg, recorded_eq]
  exact parse_reports (digits_of hl) (fun err h => parse_noPython (fun _ h => h) hs hb he hl h)

theorem extraUnit_ne {l l' : List VErr} (h : ExtraUnit l l') : l' ≠ l := by
  obtain ⟨x, y, rfl, rfl⟩ := h
  intro h
  have := congrArg List.length h
  simp only [List.length_append, List.length_cons] at this
  omega

/-- C68, URLs, exactly. The errors that the code records are those of the standard's state machine unless the host of
a "file" URL is a drive letter with "|", and then they are those and one invalid-URL-unit more. -/
theorem C68_machine_exact (env : Env) (base : Option Rec) (hb : ∀ b, base = some b → Parsed env b) (s : Str)
    (hs : Spec.IsStr s) (e : Encoding) (he : EncOK e) (hl : ¬ LongInput env s.length) (l : List VErr)
    (h : ParseReports (hostOf env) (fun t m => recorded (hostParse env t m).log) s base e l) :
    (recorded (parseUrl env s (baseArg base) e).log = l ↔ ¬ PipeDrive base (Spec.dropTabs (Spec.stripC0 s))) ∧
      (PipeDrive base (Spec.dropTabs (Spec.stripC0 s)) → ExtraUnit l (recorded (parseUrl env s (baseArg base) e).log)) := by
  obtain ⟨l2, h2, h3⟩ := C68_machine_partial env base hb s hs e he hl
  have : l2 = l := by
    obtain ⟨x, rfl, hx⟩ := h
    obtain ⟨y, rfl, hy⟩ := h2
    rw [hx.unique hy]
  subst this
  rcases h3 with ⟨h3, h4⟩ | ⟨h3, h4⟩
  · exact ⟨⟨fun _ => h3, fun _ => h4⟩, fun h => absurd h h3⟩
  · exact ⟨⟨fun h => absurd h (extraUnit_ne h4), fun h => absurd h3 h⟩, fun _ => h4⟩

/-- "file://C|/" and, against a "file" URL, "//C|" have the drive letter; against an "http" URL "//C|" has not -/
example : PipeDrive none u!"file://C|/" ∧ PipeDrive (some { scheme := u!"file", path := .list [] }) u!"//C|" ∧
    ¬ PipeDrive (some { scheme := u!"http", path := .list [] }) u!"//C|" := by
  refine ⟨⟨u!"file:", _, _, _, _, rfl, .inr (by decide), .inl rfl, .inl rfl, by unfold Spec.Letter; decide, .inr ⟨_, _, rfl, by decide⟩⟩,
    ⟨[], _, _, _, _, rfl, .inl ⟨rfl, _, rfl, rfl, rfl⟩, .inl rfl, .inl rfl, by unfold Spec.Letter; decide, .inl rfl⟩, ?_⟩
  rintro ⟨x, a, b, c, y, hs, ⟨-, r, hr, h, -⟩ | hx, -⟩
  · cases hr
    exact absurd h (by decide)
  · have h1 := congrArg List.length hs
    have h2 := congrArg List.length hx
    simp [Spec.toLower] at h1 h2
    omega

/-- the texts given to the host parser, and what the two host parsers do with them -/
theorem asked_facts {env : Env} (henv : EnvOK env) {base : Option Rec} {s : Str} (hs : IsScalarStr s) {e : Encoding}
    (hl : ¬ LongInput env s.length) {t : Str} {m : Bool}
    (ha : ParseAsks (hostParser (env.nameToAscii false)) s base e t m)
    (hr : RegularHost (Spec.domainToASCII (env.nameToAscii false)) t m) :
    hostParser (env.nameToAscii false) t m = hostOf env t m ∧
      HostTally t m (hostParser (env.nameToAscii false) t m = none) (hostReports (env.nameToAscii false) t m)
        (reportOf env t m) := by
  obtain ⟨h1, h2⟩ := asks_mem (K := ⟨base, Spec.encoder e, none, hostParser (env.nameToAscii false)⟩) ha
    ⟨fun h => by simp [Spec.Cfg.start, hostState] at h, fun _ => rfl⟩
  have h3 := asks_length (K := ⟨base, Spec.encoder e, none, hostParser (env.nameToAscii false)⟩) ha (lenOK_start _)
  rw [prepared_std] at h1 h3
  have hsc : IsScalarStr t := fun c hc => hs c (prepared_mem c (h1 c hc))
  have hlen := Nat.le_trans h3 (prepared_length_le s)
  have hlt : ¬ LongInput env t.length := fun h => hl (h.mono hlen)
  refine ⟨by rw [hostOf_eq]; exact (hostParse_std henv hsc h2 hr).symm, ?_⟩
  have := C68_host_reports_partial env henv t hsc m h2 hr hlt
  rwa [recorded_eq] at this

theorem std_reports {env : Env} (henv : EnvOK env) {base : Option Rec} {s : Str} (hs : IsScalarStr s) {e : Encoding}
    (hl : ¬ LongInput env s.length)
    (herr : ∀ err, (basicParse env s base e).toExcept = .error err → err.isURLParseError = true)
    (hr : ∀ t m, ParseAsks (hostParser (env.nameToAscii false)) s base e t m →
      RegularHost (Spec.domainToASCII (env.nameToAscii false)) t m) :
    (∃ l, ParseReports (hostParser (env.nameToAscii false)) (hostReports (env.nameToAscii false)) s base e l ∧
      (recorded (basicParse env s base e).log = [] ↔ l = [])) ∧
    ((∀ t m, ParseAsks (hostParser (env.nameToAscii false)) s base e t m →
        hostReports (env.nameToAscii false) t m = reportOf env t m) →
      ∃ l, ParseReports (hostParser (env.nameToAscii false)) (hostReports (env.nameToAscii false)) s base e l ∧
        (¬ PipeDrive base (Spec.dropTabs (Spec.stripC0 s)) ∧ recorded (basicParse env s base e).log = l ∨
          (PipeDrive base (Spec.dropTabs (Spec.stripC0 s)) ∧ ExtraUnit l (recorded (basicParse env s base e).log)))) := by
  let K : Spec.Ctx := ⟨base, Spec.encoder e, none, hostParser (env.nameToAscii false)⟩
  have hall : ∀ t m, Spec.Asks (withHost K (hostOf env)) (Spec.dropTabs (Spec.stripC0 s)) (.start .schemeStart {}) t m →
      ParseAsks (hostParser (env.nameToAscii false)) s base e t m :=
    fun t m ha => Asks_congr (K := K) (fun t m ha => (asked_facts henv hs hl ha (hr t m ha)).1) ha
  obtain ⟨l, ⟨l', rfl, h1⟩, h2⟩ := parse_reports (env := env) (e := e) (s := s) (base := base) (digits_of hl) herr
  have h1 : Spec.Reports (withHost K (hostOf env)) (reportOf env) (Spec.dropTabs (Spec.stripC0 s)) (.start .schemeStart {}) l' := h1
  rw [recorded_eq]
  constructor
  · obtain ⟨l2, g1, g2⟩ := Reports_nil_congr (hp := hostParser (env.nameToAscii false))
      (R' := hostReports (env.nameToAscii false)) (fun t m ha => by
        obtain ⟨f1, f2⟩ := asked_facts henv hs hl (hall t m ha) (hr t m (hall t m ha))
        refine ⟨f1.symm, ?_⟩
        generalize hostReports (env.nameToAscii false) t m = r at f2
        generalize reportOf env t m = t' at f2
        cases f2 with
        | same => exact Iff.rfl
        | ipv6 _ _ hr ht => exact ⟨fun h => absurd h ht, fun h => absurd h hr⟩
        | twoUnits => simp
        | range => simp) h1
    refine ⟨Spec.startErrors s ++ l2, ⟨l2, rfl, g1⟩, ?_⟩
    have key : types (basicParse env s base e).log = [] ↔ Spec.startErrors s ++ l' = [] := by
      rcases h2 with ⟨_, h2⟩ | ⟨_, x, y, h3, h4⟩
      · rw [h2]
      · rw [h3, h4]; simp
    rw [key, List.append_eq_nil_iff, List.append_eq_nil_iff, g2]
  · intro heq
    have g1 := Reports_congr (hp := hostParser (env.nameToAscii false)) (R' := hostReports (env.nameToAscii false))
      (fun t m ha => ⟨(asked_facts henv hs hl (hall t m ha) (hr t m (hall t m ha))).1.symm, (heq t m (hall t m ha)).symm⟩) h1
    exact ⟨Spec.startErrors s ++ l', ⟨l', rfl, g1⟩, h2⟩

/-- C68 (partial), URLs with the standard's host parser and its validation errors, for an input that is parsed: the
errors are the standard's, in the same order.

Missing: the drive letter of `C68_false_drive`, an opaque host with two faults, and what C66 leaves out. -/
theorem C68_parsed_partial (env : Env) (henv : EnvOK env) (base : Option Rec) (hb : ∀ b, base = some b → Parsed env b)
    (s : Str) (hs : IsScalarStr s) (e : Encoding) (he : EncOK e) (hn : NoRef e) (hl : ¬ LongInput env s.length)
    (hf : ∀ b, base = some b → b.scheme = u!"file" → ¬ BareFile s)
    (hr : ∀ t m, ParseAsks (hostParser (env.nameToAscii false)) s base e t m →
      RegularHost (Spec.domainToASCII (env.nameToAscii false)) t m ∧
      hostReports (env.nameToAscii false) t m ≠ [.invalidURLUnit, .invalidURLUnit])
    (u : Rec) (hu : (parseUrl env s (baseArg base) e).res = .ok u) :
    ∃ l, ParseReports (hostParser (env.nameToAscii false)) (hostReports (env.nameToAscii false)) s base e l ∧
      (¬ PipeDrive base (Spec.dropTabs (Spec.stripC0 s)) ∧ recorded (parseUrl env s (baseArg base) e).log = l ∨
        (PipeDrive base (Spec.dropTabs (Spec.stripC0 s)) ∧ ExtraUnit l (recorded (parseUrl env s (baseArg base) e).log))) := by
  have hp := ((C66_parser_partial env henv base hb s hs e he hn hl hf (fun t m h => (hr t m h).1)).1 u).1 hu
  rw [parseUrl_baseArg]
  refine (std_reports henv hs hl (fun err h => parse_noPython (fun _ h => h) hs.isStr hb he hl h)
    (fun t m h => (hr t m h).1)).2 ?_
  intro t m ha
  obtain ⟨hr1, hr2⟩ := hr t m ha
  obtain ⟨host, hh⟩ := Asks.some (K := ⟨base, Spec.encoder e, none, hostParser (env.nameToAscii false)⟩) ha hp
  obtain ⟨f1, f2⟩ := asked_facts henv hs hl ha hr1
  have hh : hostParser (env.nameToAscii false) t m = some host := hh
  rw [hh] at f2
  generalize hostReports (env.nameToAscii false) t m = r at f2 hr2
  generalize reportOf env t m = t' at f2
  cases f2 with
  | same _ _ => rfl
  | ipv6 _ hf => cases hf
  | twoUnits => exact absurd rfl hr2
  | range _ hf => cases hf

/-- C68 (partial, as C66 is). The code records a validation error exactly when the standard's parser reports one. -/
theorem C68_any_partial (env : Env) (henv : EnvOK env) (base : Option Rec) (hb : ∀ b, base = some b → Parsed env b)
    (s : Str) (hs : IsScalarStr s) (e : Encoding) (he : EncOK e) (hl : ¬ LongInput env s.length)
    (hr : ∀ t m, ParseAsks (hostParser (env.nameToAscii false)) s base e t m →
      RegularHost (Spec.domainToASCII (env.nameToAscii false)) t m) :
    recorded (parseUrl env s (baseArg base) e).log = [] ↔
      ParseReports (hostParser (env.nameToAscii false)) (hostReports (env.nameToAscii false)) s base e [] := by
  rw [parseUrl_baseArg]
  obtain ⟨l, h1, h2⟩ := (std_reports henv hs hl (fun err h => parse_noPython (fun _ h => h) hs.isStr hb he hl h) hr).1
  rw [h2]
  constructor
  · rintro rfl; exact h1
  · rintro ⟨l2, g1, g2⟩
    obtain ⟨l1, rfl, h1⟩ := h1
    rw [h1.unique g2, ← g1]

/-! ### C68: the verdict -/

theorem urlIsValid_true_iff (env : Env) (s : Str) (base : BaseArg) (e : Encoding) (hs : Spec.IsStr s)
    (hb : ValidBase env base) (he : EncOK e) :
    (urlIsValid env s base e).res = .ok true ↔
      ∃ u, parseUrl env.recording s base e = ⟨.ok u, []⟩ ∧ u.scheme ∈ env.registered := by
  constructor
  · intro h
    obtain ⟨u, h1, _, h3⟩ := C60_valid env s base e hs hb he h
    exact ⟨u, h1, h3⟩
  · rintro ⟨u, h1, h2⟩
    have hw : WF false (fun _ _ => True) u := ValidBase.ok hs hb he (by rw [h1])
    obtain ⟨a, rest, h3, _⟩ := hw.auth.scheme
    have h4 : isValidUrlScheme env u.scheme = ⟨.ok true, {}⟩ := by
      unfold isValidUrlScheme
      dsimp only
      rw [hw.auth.scheme.pyLower, if_pos]
      rw [Bool.and_eq_true]
      exact ⟨by rw [h3]; rfl, by rw [List.contains_iff_mem]; exact h2⟩
    unfold urlIsValid
    dsimp only
    rw [h1]
    dsimp only
    rw [h4]
    rfl

theorem recording_res {env : Env} {base : Option Rec} (hb : ∀ b, base = some b → Parsed env b)
    {s : Str} (hs : Spec.IsStr s) {e : Encoding} (he : EncOK e) (hl : ¬ LongInput env s.length) :
    (parseUrl env.recording s (baseArg base) e).res = (parseUrl env s (baseArg base) e).res := by
  have hq : (parseUrl env.recording s (baseArg base) e).res = (parseUrl env.quiet s (baseArg base) e).res := by
    rcases parseUrl_recording env s (baseArg base) e with h | h
    · exact h
    · rw [parseUrl_baseArg] at h
      exact absurd (parse_noPython (env := env) (env' := env.recording) (fun _ h => h) hs hb he hl h) (by decide)
  cases hv : env.validity with
  | true =>
    have : env.recording = env := by unfold Env.recording; rw [← hv]
    rw [this]
  | false =>
    have : env.quiet = env := by unfold Env.quiet; rw [← hv]
    rw [hq, this]

theorem recorded_nil (log : Log) : recorded log = [] ↔ log = [] := by
  rw [recorded_eq, types_eq_nil]

theorem recording_core (env : Env) (henv : EnvOK env) (base : Option Rec) (hb : ∀ b, base = some b → Parsed env b)
    (s : Str) (hs : IsScalarStr s) (e : Encoding) (he : EncOK e) (hn : NoRef e) (hl : ¬ LongInput env s.length)
    (hf : ∀ b, base = some b → b.scheme = u!"file" → ¬ BareFile s)
    (hr : ∀ t m, ParseAsks (hostParser (env.nameToAscii false)) s base e t m →
      RegularHost (Spec.domainToASCII (env.nameToAscii false)) t m) (u : Rec) :
    parseUrl env.recording s (baseArg base) e = ⟨.ok u, []⟩ ↔
      Parses (hostParser (env.nameToAscii false)) s base e (.ok u) ∧
        ParseReports (hostParser (env.nameToAscii false)) (hostReports (env.nameToAscii false)) s base e [] := by
  have h1 := (C66_parser_partial env henv base hb s hs e he hn hl hf hr).1 u
  have h2 := recording_res hb hs.isStr he hl
  obtain ⟨l, h3, h4⟩ := (std_reports (env := env.recording) (base := base) (e := e) henv hs hl
    (fun err h => parse_noPython (env := env) (env' := env.recording) (fun _ h => h) hs.isStr hb he hl h) hr).1
  have h5 : (parseUrl env.recording s (baseArg base) e).log = [] ↔
      ParseReports (hostParser (env.nameToAscii false)) (hostReports (env.nameToAscii false)) s base e [] := by
    rw [parseUrl_baseArg, ← recorded_nil, h4]
    constructor
    · rintro rfl; exact h3
    · rintro ⟨l2, g1, g2⟩
      obtain ⟨l1, rfl, h3⟩ := h3
      rw [h3.unique g2, ← g1]
  rw [← h1, ← h5, ← h2]
  constructor
  · intro h; rw [h]; exact ⟨rfl, rfl⟩
  · rintro ⟨g1, g2⟩
    rcases hh : parseUrl env.recording s (baseArg base) e with ⟨r, log⟩
    rw [hh] at g1 g2
    dsimp only at g1 g2
    rw [g1, g2]

/-- C68 (partial, as C66 is). `URLValidator.is_valid` answers true exactly when the standard's parser, with the
standard's host parser, parses the input without reporting a validation error and the scheme is registered. -/
theorem C68_verdict_partial (env : Env) (henv : EnvOK env) (base : Option Rec) (hb : ∀ b, base = some b → Parsed env b)
    (s : Str) (hs : IsScalarStr s) (e : Encoding) (he : EncOK e) (hn : NoRef e) (hl : ¬ LongInput env s.length)
    (hf : ∀ b, base = some b → b.scheme = u!"file" → ¬ BareFile s)
    (hr : ∀ t m, ParseAsks (hostParser (env.nameToAscii false)) s base e t m →
      RegularHost (Spec.domainToASCII (env.nameToAscii false)) t m) :
    (urlIsValid env s (baseArg base) e).res = .ok true ↔
      ∃ u, Parses (hostParser (env.nameToAscii false)) s base e (.ok u) ∧
        ParseReports (hostParser (env.nameToAscii false)) (hostReports (env.nameToAscii false)) s base e [] ∧
        u.scheme ∈ env.registered := by
  have hvb : ValidBase env (baseArg base) := by
    cases base with
    | none => trivial
    | some b =>
      cases hv : env.validity with
      | true => exact .inr (.inl (by rw [show env.recording = env by unfold Env.recording; rw [← hv]]; exact hb b rfl))
      | false => exact .inl (by rw [show env.quiet = env by unfold Env.quiet; rw [← hv]]; exact hb b rfl)
  rw [urlIsValid_true_iff env s _ e hs.isStr hvb he]
  have key := recording_core env henv base hb s hs e he hn hl hf hr
  constructor
  · rintro ⟨u, h1, h2⟩
    obtain ⟨h3, h4⟩ := (key u).1 h1
    exact ⟨u, h3, h4, h2⟩
  · rintro ⟨u, h3, h4, h2⟩
    exact ⟨u, (key u).2 ⟨h3, h4⟩, h2⟩

/-- C68 (partial, as C66 is). With a base string: both strings are parsed without a validation error. -/
theorem C68_string_base_partial (env : Env) (henv : EnvOK env) (b s : Str) (hbs : IsScalarStr b) (hs : IsScalarStr s)
    (e : Encoding) (he : EncOK e) (hn : NoRef e) (hlb : ¬ LongInput env b.length) (hl : ¬ LongInput env s.length)
    (hf : ∀ r, Parses (hostParser (env.nameToAscii false)) b none e (.ok r) → r.scheme = u!"file" → ¬ BareFile s)
    (hrb : ∀ t m, ParseAsks (hostParser (env.nameToAscii false)) b none e t m →
      RegularHost (Spec.domainToASCII (env.nameToAscii false)) t m)
    (hr : ∀ r, Parses (hostParser (env.nameToAscii false)) b none e (.ok r) →
      ∀ t m, ParseAsks (hostParser (env.nameToAscii false)) s (some r) e t m →
        RegularHost (Spec.domainToASCII (env.nameToAscii false)) t m) :
    (urlIsValid env s (.str b) e).res = .ok true ↔
      ∃ r u, Parses (hostParser (env.nameToAscii false)) b none e (.ok r) ∧
        ParseReports (hostParser (env.nameToAscii false)) (hostReports (env.nameToAscii false)) b none e [] ∧
        Parses (hostParser (env.nameToAscii false)) s (some r) e (.ok u) ∧
        ParseReports (hostParser (env.nameToAscii false)) (hostReports (env.nameToAscii false)) s (some r) e [] ∧
        u.scheme ∈ env.registered := by
  rw [urlIsValid_true_iff env s (.str b) e hs.isStr hbs.isStr he]
  have kb := recording_core env henv none (by simp) b hbs e he hn hlb (by simp) hrb
  have ks : ∀ r, Parses (hostParser (env.nameToAscii false)) b none e (.ok r) → ∀ u,
      parseUrl env.recording s (baseArg (some r)) e = ⟨.ok u, []⟩ ↔
        Parses (hostParser (env.nameToAscii false)) s (some r) e (.ok u) ∧
          ParseReports (hostParser (env.nameToAscii false)) (hostReports (env.nameToAscii false)) s (some r) e [] :=
    fun r hp => recording_core env henv (some r) (by
      rintro _ ⟨⟩
      exact .alone (s := b) hbs.isStr he
        (((C66_parser_partial env henv none (by simp) b hbs e he hn hlb (by simp) hrb).1 r).2 hp))
      s hs e he hn hl (by rintro _ ⟨⟩; exact hf r hp) (hr r hp)
  constructor
  · rintro ⟨u, h1, h2⟩
    unfold parseUrl at h1
    dsimp only at h1
    split at h1
    · cases h1
    · rename_i r hbr
      simp only [Res.mk.injEq, List.append_eq_nil_iff] at h1
      obtain ⟨h1, h3, h4⟩ := h1
      obtain ⟨p1, p2⟩ := (kb r).1 (by rw [parseUrl_baseArg, hbr, h4])
      obtain ⟨p3, p4⟩ := (ks r p1 u).1 (by rw [parseUrl_baseArg, h1, h3])
      exact ⟨r, u, p1, p2, p3, p4, h2⟩
  · rintro ⟨r, u, p1, p2, p3, p4, h2⟩
    refine ⟨u, ?_, h2⟩
    have h1 := (kb r).2 ⟨p1, p2⟩
    have h3 := (ks r p1 u).2 ⟨p3, p4⟩
    rw [parseUrl_baseArg] at h1 h3
    simp only [Res.mk.injEq] at h1 h3
    unfold parseUrl
    dsimp only
    rw [h1.1]
    dsimp only
    rw [h3.1, h3.2, h1.2]
    rfl

/-! ### The hypotheses can be met -/

theorem exEnv_asked {s : Str} {base : Option Rec} {t : Str} {m : Bool}
    (h : Spec.asked ⟨base, Spec.encoder .utf8, none, hostParser (exEnv.nameToAscii false)⟩
      (Spec.dropTabs (Spec.stripC0 s)) 200 (.start .schemeStart {}) = some [(u!"My-h%6Fst.example", false)])
    (ha : ParseAsks (hostParser (exEnv.nameToAscii false)) s base .utf8 t m) :
    RegularHost (Spec.domainToASCII (exEnv.nameToAscii false)) t m ∧
      hostReports (exEnv.nameToAscii false) t m ≠ [.invalidURLUnit, .invalidURLUnit] := by
  have hm := Spec.asks_asked ha h
  simp only [List.mem_singleton, Prod.mk.injEq] at hm
  obtain ⟨rfl, rfl⟩ := hm
  exact ⟨exEnv_regular, by decide +kernel⟩

-- a host with a validation error, and one without
example : recorded (hostParse exEnv u!"a%3x" true).log = hostReports (exEnv.nameToAscii false) u!"a%3x" true ∧
    hostReports (exEnv.nameToAscii false) u!"a%3x" true = [.invalidURLUnit] :=
  ⟨C68_parsed_host_partial exEnv (.inr (by decide)) _ (by unfold IsScalarStr Spec.Surrogate; decide) true (.inr rfl)
    ⟨fun x h => (by cases h), fun h => (by cases h)⟩ (exEnv_short (by decide)) (.str u!"a%3x") (by decide +kernel)
    (by decide +kernel), by decide +kernel⟩
-- a URL with seven validation errors, and a base URL
example : recorded (parseUrl exEnv u!" http:\\\\u@My-h%6Fst.example:80/a b%" (baseArg (some exRecord)) .utf8).log =
      [.invalidURLUnit, .specialSchemeMissingFollowingSolidus, .invalidReverseSolidus, .invalidReverseSolidus,
        .invalidCredentials, .invalidURLUnit, .invalidURLUnit] ∧
    ∃ l, ParseReports (hostParser (exEnv.nameToAscii false)) (hostReports (exEnv.nameToAscii false))
      u!" http:\\\\u@My-h%6Fst.example:80/a b%" (some exRecord) .utf8 l := by
  refine ⟨by decide +kernel, ?_⟩
  obtain ⟨l, h, _⟩ := C68_parsed_partial exEnv (.inr (by decide)) (some exRecord) (by rintro _ ⟨⟩; exact exRecord_parsed)
    u!" http:\\\\u@My-h%6Fst.example:80/a b%" (by unfold IsScalarStr Spec.Surrogate; decide) .utf8 trivial trivial
    (exEnv_short (by decide)) (by rintro _ ⟨⟩ h; exact absurd h (by decide))
    (fun t m ha => exEnv_asked (by decide +kernel) ha)
    { scheme := u!"http", username := u!"u", host := some (.str u!"my-host.example"), path := .list [u!"a%20b%"] }
    (by decide +kernel)
  exact ⟨l, h⟩
-- a valid URL
example : (urlIsValid exEnv u!"HTTPS://My-h%6Fst.example:81/a/../b?q#f" (baseArg (some exRecord)) .utf8).res = .ok true :=
  (C68_verdict_partial exEnv (.inr (by decide)) (some exRecord) (by rintro _ ⟨⟩; exact exRecord_parsed) _
    (by unfold IsScalarStr Spec.Surrogate; decide) .utf8 trivial trivial (exEnv_short (by decide))
    (by rintro _ ⟨⟩ h; exact absurd h (by decide)) (fun t m ha => (exEnv_asked (by decide +kernel) ha).1)).2
    ⟨{ scheme := u!"https", host := some (.str u!"my-host.example"), port := some 81, path := .list [u!"b"],
       query := some u!"q", fragment := some u!"f" },
      Spec.exec_halts (n := 200) (by decide +kernel),
      ⟨[], by decide +kernel, Spec.execReports_reports (n := 200) (by decide +kernel)⟩, by decide +kernel⟩
-- an opaque path, and a relative reference, with strings
example : (urlIsValid exEnv u!"#é" (.str u!"mailto:a@b") .utf8).res = .ok true := by
  have hp : Parses (hostParser (exEnv.nameToAscii false)) u!"mailto:a@b" none .utf8
      (.ok { scheme := u!"mailto", path := .opaque u!"a@b" }) := Spec.exec_halts (n := 200) (by decide +kernel)
  refine (C68_string_base_partial exEnv (.inr (by decide)) u!"mailto:a@b" u!"#é"
    (by unfold IsScalarStr Spec.Surrogate; decide) (by unfold IsScalarStr Spec.Surrogate; decide) .utf8 trivial trivial
    (exEnv_short (by decide)) (exEnv_short (by decide)) ?_ ?_ ?_).2
    ⟨{ scheme := u!"mailto", path := .opaque u!"a@b" },
      { scheme := u!"mailto", path := .opaque u!"a@b", fragment := some u!"%C3%A9" }, hp,
      ⟨[], by decide +kernel, Spec.execReports_reports (n := 200) (by decide +kernel)⟩,
      Spec.exec_halts (n := 200) (by decide +kernel),
      ⟨[], by decide +kernel, Spec.execReports_reports (n := 200) (by decide +kernel)⟩, by decide +kernel⟩
  · intro r h; have := hp.unique h; cases this; intro h; exact absurd h (by decide)
  · intro t m ha
    exact absurd (Spec.asks_asked (n := 200) (l := []) ha (by decide +kernel)) (by simp)
  · intro r h t m ha
    have := hp.unique h
    cases this
    exact absurd (Spec.asks_asked (n := 200) (l := []) ha (by decide +kernel)) (by simp)

end Urlstd.Props
