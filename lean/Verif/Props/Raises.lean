/-
Property C95, and the exactness of C14, C45 and C61: when a bare ValueError escapes.
-/
import Verif.Lemmas.IPv6e
import Verif.Props.Numeral
import Verif.Props.Refuse
import Verif.Props.Validity
import Verif.Props.History
import Verif.Props.Origin
import Verif.Spec.Raises

namespace Urlstd.Props

open Spec (IsStr Front Extent AuthorityRefused Refused GoodBase IPv6Raises HostRaises AuthorityRaises TextRaises CallRaises LongQuad
  EndsColon StartsColon DecPart EndsInNumber PartsRead Raises DelOK)

/-! ### C14 -/

/-- C14. The exception is exact: IPv6 parsing raises ValueError exactly if a group of the text is a dotted IPv4 address with a part of
too many digits, and the groups in front of it would be accepted with two pieces in its place. -/
theorem C14_exact (env : Env) (s : Str) : (ipv6Parse env s).res = .error .valueError ↔ IPv6Raises env s := by
  rw [ipv6Parse_valueError]
  unfold IPv6Raises
  constructor
  · rintro ⟨x, g, y, h1, h2, h3, h4, z, a, log, h5⟩
    exact ⟨x, g, y, h1, h2, h3, h4, z, a, by rw [h5]⟩
  · rintro ⟨x, g, y, h1, h2, h3, h4, z, a, h5⟩
    exact ⟨x, g, y, h1, h2, h3, h4, z, a, (ipv6Parse env (x ++ u!"0:0" ++ z)).log, by rw [← h5]⟩

/-- a limit of two digits, to have short examples (CPython has none below 640) -/
def exEnv2 : Env := { exEnv with maxStrDigits := 2 }

-- the other parts of the address and what is behind it do not matter, what is in front of it does
example : IPv6Raises exEnv2 u!"1::999.100.0:!" ∧ ¬ IPv6Raises exEnv2 u!"g::999.100.0" ∧ ¬ IPv6Raises exEnv2 u!"1::999.01" :=
  ⟨⟨u!"1::", u!"999.100.0", u!":!", by decide, .inr (by decide), .inr (by decide),
      ⟨[u!"999", u!"100", u!"0"], by decide, by decide, by decide,
        by
          intro p hp
          simp only [List.mem_cons, List.not_mem_nil, or_false] at hp
          rcases hp with rfl | rfl | rfl
          · exact ⟨by decide, by decide, .inr (by decide)⟩
          · exact ⟨by decide, by decide, .inr (by decide)⟩
          · exact ⟨by decide, by decide, .inl (by decide)⟩,
        by decide, u!"999", by decide, by decide⟩, [], [1, 0, 0, 0, 0, 0, 0, 0], by decide +kernel⟩,
    fun h => absurd ((C14_exact _ _).2 h) (by decide +kernel), fun h => absurd ((C14_exact _ _).2 h) (by decide +kernel)⟩

/-! ### C45 -/

/-- C45. The exception is exact: among the reachable URLs, a credential or port without a host is found in those whose port is 0. -/
theorem C45_exact (env : Env) (o : URLObj) (h : Reached env o) : ¬ Spec.BareWithoutHost o.url ↔
    o.url.port = some 0 ∧ (o.url.host = none ∨ o.url.host = some (.str []) ∨ o.url.scheme = u!"file") := by
  constructor
  · intro hn
    refine ⟨Classical.byContradiction fun hp => hn (C45_bare_partial env o h hp), Classical.byContradiction fun hh => ?_⟩
    exact hn fun hb => absurd hb hh
  · rintro ⟨hp, hb⟩ hbare
    have := (hbare hb).2.2
    rw [hp] at this
    cases this

/-! ### C95 -/

/-- C95. The hosts that raise ValueError. -/
theorem C95_host (env : Env) (hd : DelOK env) (t : Str) (ht : IsStr t) (special : Bool) :
    (hostParse env t (!special)).res = .error .valueError ↔ HostRaises env special t := by
  unfold HostRaises
  rw [← utf8Encode_eq t ht, ← percentDecode_eq, ← utf8Decode_eq]
  change _ ↔ _ ∨ (_ ∧ _ ∧ _ ∧ ∃ a, (domainToAscii env (utf8Decode (stringPercentDecode t)) false).res = .ok a ∧ _)
  simp only [← isForbiddenDomain_iff, Bool.not_eq_true]
  cases t with
  | nil =>
    constructor
    · intro h; cases h
    · rintro (⟨s, h, -⟩ | ⟨-, h, -⟩)
      · cases h
      · exact absurd rfl h
  | cons c cs =>
    by_cases hc : c = 91
    · subst hc
      have hbr : ∀ s, 91 :: cs = u!"[" ++ s ++ u!"]" ↔ cs = s ++ u!"]" := by
        intro s
        constructor
        · intro h; injection h
        · intro h; rw [h]; rfl
      constructor
      · intro h
        left
        unfold hostParse at h
        dsimp only at h
        rw [if_pos rfl] at h
        split at h
        · cases h
        · next hl =>
          refine ⟨cs.dropLast, (hbr _).2 ?_, (C14_exact env _).1 ?_⟩
          · have hne : cs ≠ [] := by rintro rfl; exact hl (by decide)
            have h2 : (91 :: cs).getLastD 0 = 93 := Classical.byContradiction hl
            rw [List.getLastD_eq_getLast?, List.getLast?_cons, List.getLast?_eq_some_getLast hne] at h2
            have h3 : cs.getLast hne = 93 := by simpa using h2
            have := List.dropLast_concat_getLast hne
            rw [h3] at this
            exact this.symm
          · rcases hp : ipv6Parse env cs.dropLast with ⟨r, log⟩
            rw [hp] at h
            cases r with
            | ok a => cases h
            | error e => simpa [Res.err] using h
      · rintro (⟨s, h, hr⟩ | ⟨-, -, h, -⟩)
        · rw [hbr] at h
          subst h
          have := (C14_exact env s).2 hr
          unfold hostParse
          dsimp only
          rw [if_pos rfl, if_neg (by
            intro hn
            apply hn
            rw [List.getLastD_eq_getLast?, List.getLast?_cons, List.getLast?_append]
            rfl)]
          rw [List.dropLast_concat]
          rcases hp : ipv6Parse env s with ⟨r, log⟩
          rw [hp] at this
          cases r with
          | ok a => cases this
          | error e => simpa [Res.err] using this
        · exact absurd rfl h
    · have hbr : ¬ ∃ s, c :: cs = u!"[" ++ s ++ u!"]" ∧ IPv6Raises env s := by
        rintro ⟨s, h, -⟩
        injection h with h _
        exact hc h
      simp only [hbr, false_or, List.head?_cons, ne_eq, Option.some.injEq, reduceCtorEq, not_false_eq_true, true_and, hc]
      unfold hostParse
      dsimp only
      rw [if_neg hc]
      cases special with
      | false =>
        rw [if_pos (by decide)]
        simp only [Bool.false_eq_true, false_and, iff_false]
        intro h
        rcases hp : parseOpaqueHost (c :: cs) with ⟨r, log⟩
        rw [hp] at h
        cases r with
        | ok a => cases h
        | error e =>
          simp only [Res.err, Except.error.injEq] at h
          subst h
          unfold parseOpaqueHost at hp
          split at hp <;> cases hp
      | true =>
        rw [if_neg (by decide)]
        simp only [true_and]
        rcases hdom : domainToAscii env (utf8Decode (stringPercentDecode (c :: cs))) false with ⟨res, log⟩
        cases res with
        | error e =>
          have := domainToAscii_err hdom
          simp only [Res.err, Except.error.injEq, reduceCtorEq, false_and, exists_false, iff_false]
          rintro rfl
          cases this
        | ok a =>
          simp only [Except.ok.injEq, exists_eq_left']
          by_cases hf : a.any isForbiddenDomain = true
          · rw [if_pos hf]
            constructor
            · intro h; cases h
            · rintro ⟨h, -⟩
              obtain ⟨x, hx, hx2⟩ := List.any_eq_true.1 hf
              rw [h x hx] at hx2; cases hx2
          · rw [if_neg hf]
            have hf' : ∀ x ∈ a, isForbiddenDomain x = false := by simpa using hf
            by_cases hn : isEndsInANumber env a = true
            · rw [if_pos hn]
              rcases hp : ipv4Parse env a with ⟨res, log'⟩
              have h1 := (C88_parse env hd a).2.1
              rw [hp] at h1
              cases res with
              | error e =>
                simp only [Res.err, Except.error.injEq] at h1 ⊢
                exact ⟨fun h => ⟨hf', (C88_ends env hd a).1 hn, h1.1 h⟩, fun h => h1.2 h.2.2⟩
              | ok m =>
                constructor
                · intro h; cases h
                · rintro ⟨-, -, h⟩; cases h1.2 h
            · rw [if_neg hn]
              constructor
              · intro h; cases h
              · rintro ⟨-, h, -⟩; exact absurd ((C88_ends env hd a).2 h) hn

theorem hostRaises_ne_nil {env : Env} {special : Bool} {h : Str} (hr : HostRaises env special h) : h ≠ [] := by
  rcases hr with ⟨s, rfl, -⟩ | ⟨-, h1, -⟩
  · simp
  · exact h1

theorem authorityRaises_iff (env : Env) (hd : DelOK env) (scheme a : Str) (ha : IsStr a) :
    AuthorityRefused env scheme a .valueError ↔ AuthorityRaises env scheme a := by
  unfold AuthorityRefused AuthorityRaises
  by_cases hf : scheme = u!"file"
  · rw [if_pos hf, if_pos hf]
    have := C95_host env hd a ha true
    rw [Bool.not_true] at this
    rw [this]
    exact ⟨fun h => h.2, fun h => ⟨hostRaises_ne_nil h.2, h⟩⟩
  · rw [if_neg hf, if_neg hf]
    have hsub : ∀ {userinfo host port}, a = (Spec.Parts.mk userinfo host port [] none none).text → IsStr host := by
      rintro userinfo host port rfl c hc
      refine ha c ?_
      simp [Spec.Parts.text, hc]
    constructor
    · rintro ⟨userinfo, host, port, h1, h2, h3⟩
      refine ⟨userinfo, host, port, h1, h2, ?_⟩
      rcases h3 with ⟨-, -, h3⟩ | ⟨h3, h4⟩ | ⟨h3, h4, x, h5, h6⟩
      · cases h3
      · exact .inl ((C95_host env hd host (hsub h2) _).1 h4)
      · refine .inr ⟨h3, h4, x, h5, ?_⟩
        rcases h6 with ⟨-, h6⟩ | ⟨h6, h7, h8, -⟩ | ⟨-, -, -, h6⟩
        · cases h6
        · exact ⟨h6, h7, h8⟩
        · cases h6
    · rintro ⟨userinfo, host, port, h1, h2, h3⟩
      refine ⟨userinfo, host, port, h1, h2, ?_⟩
      rcases h3 with h3 | ⟨h3, h4, x, h5, h6, h7, h8⟩
      · exact .inr (.inl ⟨hostRaises_ne_nil h3, (C95_host env hd host (hsub h2) _).2 h3⟩)
      · exact .inr (.inr ⟨h3, h4, x, h5, .inr (.inl ⟨h6, h7, h8, rfl⟩)⟩)

/-- C95. The texts that raise ValueError when they are parsed. -/
theorem C95_text (env : Env) (hd : DelOK env) (s : Str) (hs : IsStr s) (base : Option Rec) (hb : GoodBase base) (enc : Encoding) :
    (parseUrl env s (baseArg base) enc).res = .error .valueError ↔ TextRaises env base (Spec.dropTabs (Spec.stripC0 s)) := by
  rw [C94_refused env s hs base hb enc]
  unfold Refused TextRaises
  have hstr : IsStr (Spec.dropTabs (Spec.stripC0 s)) := by
    intro c hc
    have hc := (List.mem_filter.1 hc).1
    unfold Spec.stripC0 at hc
    rw [List.mem_reverse] at hc
    have hc := (List.dropWhile_suffix _).subset hc
    rw [List.mem_reverse] at hc
    exact hs c ((List.dropWhile_suffix _).subset hc)
  constructor
  · rintro (⟨h, -⟩ | ⟨front, sc, a, rest, h1, h2, h3, h4⟩)
    · cases h
    · exact ⟨front, sc, a, rest, h1, h2, h3, (authorityRaises_iff env hd sc a (fun c hc => hstr c (by rw [h3]; simp [hc]))).1 h4⟩
  · rintro ⟨front, sc, a, rest, h1, h2, h3, h4⟩
    exact .inr ⟨front, sc, a, rest, h1, h2, h3, (authorityRaises_iff env hd sc a (fun c hc => hstr c (by rw [h3]; simp [hc]))).2 h4⟩

theorem exEnv2_del : DelOK exEnv2 := exEnv_del

-- a port, the numbers of a host in base 16, an address in brackets; neither
example : TextRaises exEnv2 none u!"http://h:123/" ∧ TextRaises exEnv2 none u!"http://u@0xfff.1?" ∧
    TextRaises exEnv2 none u!"x://[::123.1.1.1]" ∧ ¬ TextRaises exEnv2 none u!"x://0xfff.1" ∧ ¬ TextRaises exEnv2 none u!"http://:123/" := by
  have key : ∀ s, IsStr s → Spec.dropTabs (Spec.stripC0 s) = s →
      ((parseUrl exEnv2 s).res = .error .valueError ↔ TextRaises exEnv2 none s) := by
    intro s hs h
    have := C95_text exEnv2 exEnv2_del s hs none (fun b h => by cases h) .utf8
    rwa [h] at this
  refine ⟨(key _ (by decide) (by decide)).1 (by decide +kernel), (key _ (by decide) (by decide)).1 (by decide +kernel),
    (key _ (by decide) (by decide)).1 (by decide +kernel), fun h => ?_, fun h => ?_⟩
  · exact absurd ((key _ (by decide) (by decide)).2 h) (by decide +kernel)
  · exact absurd ((key _ (by decide) (by decide)).2 h) (by decide +kernel)

/-- C95. The same for every kind of base, a text among them, which has to be parsed first. -/
theorem C95_call (env : Env) (hd : DelOK env) (s : Str) (hs : IsStr s) (base : BaseArg) (enc : Encoding)
    (hb : ∀ b, base = .str b → IsStr b) (hr : ∀ r, base = .record r → GoodBase (some r)) :
    (parseUrl env s base enc).res = .error .valueError ↔ CallRaises env s base := by
  rw [error_encoding]
  cases base with
  | none => exact C95_text env hd s hs none (fun b h => by cases h) .utf8
  | record r => exact C95_text env hd s hs (some r) (hr r rfl) .utf8
  | str b =>
    have hb : IsStr b := hb b rfl
    have h1 := C95_text env hd b hb none (fun b h => by cases h) .utf8
    show (parseUrl env s (.str b)).res = _ ↔ TextRaises env none _ ∨ ∃ r, (parseUrl env b).res = .ok r ∧ _
    rw [← h1]
    have e : (parseUrl env s (.str b)).res = match (parseUrl env b).res with
        | .error e => .error e
        | .ok r => (parseUrl env s (.record r)).res := by
      unfold parseUrl
      dsimp only
      cases (basicParse env b none .utf8).toExcept <;> rfl
    rw [e]
    change _ ↔ (parseUrl env b).res = _ ∨ _
    cases hr : (parseUrl env b).res with
    | error e =>
      dsimp only
      simp
    | ok r =>
      have hg : GoodBase (some r) := by
        have hw : Parsed env r := .alone (e := .utf8) hb trivial hr
        intro b' h hs'
        cases h
        exact base_list hw (by rw [← hs']; exact (isSpecial_eq _).symm)
      have h2 := C95_text env hd s hs (some r) hg .utf8
      dsimp only
      refine h2.trans ⟨fun h => .inr ⟨r, rfl, h⟩, ?_⟩
      rintro (h | ⟨r', h, h3⟩)
      · cases h
      · injection h with h
        subst h
        exact h3

theorem callRaises_iff (env env' : Env) (hd : DelOK env') (s : Str) (hs : IsStr s) (base : UrlBase) (hb : UrlBaseOK env base) :
    (parseUrl env' s base.arg).res = .error .valueError ↔ CallRaises env' s base.arg := by
  refine C95_call env' hd s hs base.arg .utf8 (fun b h => ?_) (fun r h => ?_)
  · cases base with
    | none => cases h
    | url o => cases h
    | str b' => injection h with h; subst h; exact hb
  · cases base with
    | none => cases h
    | url o => injection h with h; subst h; exact reached_base (env := env) hb
    | str b' => cases h

/-- C95. The constructor raises ValueError for these texts. -/
theorem C95_constructor (env : Env) (hd : DelOK env) (s : Str) (hs : IsStr s) (base : UrlBase) (hb : UrlBaseOK env base) :
    URLObj.new env s base = .error .valueError ↔ CallRaises env.quiet s base.arg := by
  rw [← callRaises_iff env env.quiet hd s hs base hb]
  unfold URLObj.new
  cases (parseUrl env.quiet s base.arg).res <;> simp

/-- C95. `can_parse` raises an exception for these texts, and for no others. -/
theorem C95_can_parse (env : Env) (hd : DelOK env) (s : Str) (hs : IsStr s) (base : UrlBase) (hb : UrlBaseOK env base) :
    (∃ e, (canParse env s base).res = .error e) ↔ CallRaises env.recording s base.arg := by
  rw [← callRaises_iff env env.recording hd s hs base hb]
  constructor
  · rintro ⟨e, h⟩
    obtain ⟨rfl, -⟩ := C61_raises_partial env s base hs hb e h
    unfold canParse at h
    rcases hr : parseUrl env.recording s base.arg with ⟨r, log⟩
    rw [hr] at h
    cases r with
    | ok u => cases h
    | error e =>
      dsimp only at h
      split at h
      · cases h
      · simpa [Res.err] using h
  · intro h
    refine ⟨.valueError, ?_⟩
    unfold canParse
    rcases hr : parseUrl env.recording s base.arg with ⟨r, log⟩
    rw [hr] at h
    cases r with
    | ok u => cases h
    | error e =>
      injection h with h
      subst h
      rfl

/-- C95. What the constructor refuses with ValueError, `can_parse` does too. -/
theorem C95_recording (env : Env) (hd : DelOK env) (s : Str) (hs : IsStr s) (base : UrlBase) (hb : UrlBaseOK env base)
    (h : CallRaises env.quiet s base.arg) : CallRaises env.recording s base.arg := by
  rw [← callRaises_iff env env.recording hd s hs base hb]
  rw [← callRaises_iff env env.quiet hd s hs base hb] at h
  have := parseUrl_recording env s base.arg .utf8
  rw [h] at this
  rcases this with h1 | h1
  · exact h1
  · exact h1

/-! ### C21 -/

/-- C21. The exception is exact: `parse_url` raises something else than URLParseError and its subclasses for the texts of C95, and then it
is ValueError. -/
theorem C21_exact (env : Env) (hd : DelOK env) (s : Str) (base : BaseArg) (enc : Encoding) (hs : IsStr s) (hb : BaseOK env base)
    (he : EncOK enc) : (∃ e, (parseUrl env s base enc).res = .error e ∧ e.isURLParseError = false) ↔ CallRaises env s base := by
  rw [← C95_call env hd s hs base enc (fun b h => by subst h; exact hb) (fun r h => by
    subst h
    intro b' h hs'
    cases h
    exact base_list hb (by rw [← hs']; exact (isSpecial_eq _).symm))]
  constructor
  · rintro ⟨e, h1, h2⟩
    rcases C21_errors env s base enc e hs hb he h1 with h | ⟨rfl, -⟩
    · rw [h2] at h; cases h
    · exact h1
  · intro h
    exact ⟨.valueError, h, rfl⟩

/-! ### C56 -/

/-- C56. The exception is exact: `origin` raises an exception exactly if the URL is a blob URL and its path is one of the texts of C95. -/
theorem C56_exact (env : Env) (hd : DelOK env) (o : URLObj) (hs : IsStr (serializePath o.url.path)) :
    (∃ e, o.origin env = .error e) ↔
      o.url.scheme = u!"blob" ∧ CallRaises env.quiet (serializePath o.url.path) .none := by
  have hq : env.quiet.quiet = env.quiet := rfl
  have hor : ∀ e, o.origin env = .error e ↔ o.url.origin env.quiet = .error e := by
    intro e
    unfold URLObj.origin
    rcases o.url.origin env.quiet with e' | (_ | x) <;> simp
  simp only [hor]
  by_cases hb : o.url.scheme = u!"blob"
  · obtain ⟨h1, h2, h3, h4⟩ := C56_blob env.quiet o.url hb _ rfl
    rw [hq] at h1 h2 h3 h4
    rw [← C21_exact env.quiet hd (serializePath o.url.path) .none .utf8 hs trivial trivial]
    simp only [hb, true_and]
    constructor
    · rintro ⟨e, he⟩
      cases hr : (parseUrl env.quiet (serializePath o.url.path)).res with
      | ok p =>
        by_cases hp : p.scheme = u!"http" ∨ p.scheme = u!"https"
        · rw [h1 p hr hp] at he; cases he
        · rw [not_or] at hp
          rw [h2 p hr hp.1 hp.2] at he; cases he
      | error e' =>
        cases hu : e'.isURLParseError with
        | true => rw [h3 e' hr hu] at he; cases he
        | false => exact ⟨e', rfl, hu⟩
    · rintro ⟨e, h5, h6⟩
      exact ⟨e, h4 e h5 h6⟩
  · simp only [hb, false_and, iff_false]
    rintro ⟨e, he⟩
    unfold Rec.origin at he
    rw [if_neg hb] at he
    cases he

example : CallRaises exEnv2.quiet u!"http://h:123" .none ∧
    (URLObj.new exEnv2 u!"blob:http://h:123").toOption.map (·.origin exEnv2) = some (.error .valueError) := by
  refine ⟨((C56_exact exEnv2 exEnv2_del ⟨{ scheme := u!"blob", path := .opaque u!"http://h:123" }, []⟩ (by decide)).1
    ⟨.valueError, by decide +kernel⟩).2, by decide +kernel⟩

/-! ### C61 -/

/-- C61. The exception is exact: `can_parse` fails to say whether the constructor succeeds for the texts of C95. -/
theorem C61_exact (env : Env) (hd : DelOK env) (s : Str) (hs : IsStr s) (base : UrlBase) (hb : UrlBaseOK env base) :
    (¬ ∃ b, (canParse env s base).res = .ok b ∧ (b = true ↔ ∃ o, URLObj.new env s base = .ok o)) ↔ CallRaises env.recording s base.arg := by
  rw [← C95_can_parse env hd s hs base hb]
  cases hr : (canParse env s base).res with
  | error e => simp
  | ok b =>
    have := C61_predicts_partial env s base b hr
    simp [this]

-- the two differ: a number above 255 is written into a message only if there is something that records it
example : CallRaises exEnv2.recording u!"http://0xfff/" .none ∧ ¬ CallRaises exEnv2.quiet u!"http://0xfff/" .none ∧
    ∃ o, URLObj.new exEnv2 u!"http://0xfff/" = .ok o :=
  ⟨(C95_can_parse exEnv2 exEnv2_del _ (by decide) .none trivial).1 ⟨.valueError, by decide +kernel⟩,
    fun h => absurd ((C95_constructor exEnv2 exEnv2_del _ (by decide) .none trivial).2 h) (by decide +kernel), _, rfl⟩

end Urlstd.Props
