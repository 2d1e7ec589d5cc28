/-
Property C73: valid URL strings.
-/
import Verif.Lemmas.Writing4
import Verif.Props.Domain

namespace Urlstd.Props

open Spec (IsScalarStr ValidDomain ValidHostString StrictOK StrictPart strictToASCII cleanToUnicode dotted LDH ValidURL HasScheme Regular6
  IPv6Text OpaqueHostString URLUnits PathRelative)

/-- The valid host strings of the standard without those for which C15 and C72 fail: domains whose ASCII form ends in a
number, and IPv6 addresses with a final "::" that is the eighth colon (the other conditions of `Regular6` hold for every
valid address). -/
def PlainHost (env : Env) (h : Str) : Prop :=
  (IsScalarStr h ∧ ValidDomain (env.nameToAscii true) (env.nameToUnicode true) h ∧
    ∀ a, strictToASCII (env.nameToAscii true) h = some a →
      Spec.endsInANumber a = false ∧ ∀ p, (Spec.ipv4Parts a).getLast? = some p → StrictPart p) ∨
  (∃ n, n < 2 ^ 32 ∧ h = dotted n) ∨ ∃ a, h = u!"[" ++ a ++ u!"]" ∧ IPv6Text a ∧ Regular6 a

/-- the valid opaque-host strings of the standard without those for which C15 fails -/
def PlainOpaque (h : Str) : Prop := OpaqueHostString h ∧ ∀ a, h = u!"[" ++ a ++ u!"]" → Regular6 a

theorem plainHost_valid {env : Env} {h : Str} (hh : PlainHost env h) :
    ValidHostString (env.nameToAscii true) (env.nameToUnicode true) h := by
  rcases hh with ⟨-, hh, -⟩ | hh | ⟨a, hh, h6, -⟩
  · exact .inl hh
  · exact .inr (.inl hh)
  · exact .inr (.inr ⟨a, hh, h6.2⟩)

theorem dotted_chars {n : Nat} (hn : n < 2 ^ 32) : ∀ c ∈ dotted n, isDigit c = true ∨ c = c!"." := by
  rw [← C10_ipv4_serialize_dotted n hn]
  exact ipv4Serialize_digits n

/-- what the lemmas about silent runs need -/
theorem plainHosts_ok {env : Env} (he : EnvOK env) (hi : IdnaOK env) (hst : StrictOK env) :
    HostsOK env (PlainHost env) PlainOpaque ∧ (∀ h, PlainHost env h → Visible h) ∧ ∀ h, PlainOpaque h → Visible h := by
  have v6 : ∀ a, IPv6Text a → Visible (u!"[" ++ a ++ u!"]") ∧ c!"|" ∉ u!"[" ++ a ++ u!"]" := by
    intro a ha
    have key : ∀ c ∈ u!"[" ++ a ++ u!"]", 0x20 < c ∧ c ≠ c!"|" := by
      intro c hc
      simp only [List.mem_append, List.mem_cons, List.not_mem_nil, or_false] at hc
      rcases hc with (rfl | hc) | rfl
      · decide
      · rcases ha.1 c hc with h | rfl | rfl
        · have := hex_lt h; omega
        · decide
        · decide
      · decide
    exact ⟨fun c hc => (key c hc).1, fun h => (key _ h).2 rfl⟩
  have dom : ∀ h, ValidDomain (env.nameToAscii true) (env.nameToUnicode true) h → ∀ c ∈ h, c < 128 → LDH c := by
    rintro h ⟨a, ha, -⟩
    exact hst.source h a ha
  have ldh : ∀ c, LDH c → 0x20 < c ∧ c ∉ u!"/?#\\:@[]|" := by
    intro c hc
    simp only [List.mem_cons, List.not_mem_nil, or_false, not_or]
    rcases hc with h | rfl | rfl
    · simp only [isAlnum_spec, isAlnum, isAlpha, isDigit, Bool.or_eq_true, Bool.and_eq_true, decide_eq_true_eq] at h
      omega
    · decide
    · decide
  have dig : ∀ c, isDigit c = true ∨ c = c!"." → 0x20 < c ∧ c ∉ u!"/?#\\:@[]|" := by
    intro c hc
    refine ldh c ?_
    rcases hc with h | h
    · exact .inl (by rw [isAlnum_spec]; unfold isAlnum; simp [h])
    · exact .inr (.inr h)
  have sub : ∀ c, c ∉ u!"/?#\\:@[]|" → c ∉ u!"/?#\\:@[]" ∧ c ≠ c!"|" := by
    intro c hc
    simp only [List.mem_cons, List.not_mem_nil, or_false, not_or] at hc ⊢
    omega
  refine ⟨⟨?_, ?_⟩, ?_, ?_⟩
  · rintro h (⟨hs, hd, hn⟩ | ⟨n, hn, rfl⟩ | ⟨a, rfl, ha, hr⟩)
    · obtain ⟨a, ha, -⟩ := id hd
      have hc : ∀ c ∈ h, c ∉ u!"/?#\\:@[]|" := by
        intro c hc
        by_cases hlt : c < 128
        · exact (ldh c (dom h hd c hc hlt)).2
        · simp only [List.mem_cons, List.not_mem_nil, or_false, not_or]
          omega
      refine ⟨?_, ⟨.inl fun c hm => (sub c (hc c hm)).1, .str a, strict_accepted env he hst hs ha (hn a ha)⟩, fun h => (sub _ (hc _ h)).2 rfl⟩
      rintro rfl
      rw [hst.empty] at ha
      cases ha
    · have hc : ∀ c ∈ dotted n, c ∉ u!"/?#\\:@[]|" := fun c hm => (dig c (dotted_chars hn c hm)).2
      refine ⟨?_, ⟨.inl fun c hm => (sub c (hc c hm)).1, .ipv4 n, C62_host env he hi n hn⟩, fun h => (sub _ (hc _ h)).2 rfl⟩
      intro h0
      have := C62_host env he hi n hn
      rw [h0] at this
      cases this
    · exact ⟨by simp, fine_ipv6 env he false ha hr, (v6 a ha).2⟩
  · rintro h ⟨⟨hne, hu⟩ | ⟨a, rfl, ha⟩, hr⟩
    · exact ⟨hne, fine_opaque env hne hu⟩
    · exact ⟨by simp, fine_ipv6 env he true ha (hr a rfl)⟩
  · rintro h (⟨hs, hd, hn⟩ | ⟨n, hn, rfl⟩ | ⟨a, rfl, ha, hr⟩)
    · intro c hc
      by_cases hlt : c < 128
      · exact (ldh c (dom h hd c hc hlt)).1
      · omega
    · exact fun c hm => (dig c (dotted_chars hn c hm)).1
    · exact (v6 a ha).1
  · rintro h ⟨⟨hne, hu⟩ | ⟨a, rfl, ha⟩, hr⟩
    · exact units_visible hu
    · exact (v6 a ha).1

/-! ### C73 -/

/-- C73 (partial). A valid URL string of the standard is parsed without a validation error, and gets the scheme it names or
the scheme of its base.

Missing: the hosts for which C15 and C72 fail, ports with more digits than CPython's limit, and relative references to a
base with an opaque path, which the standard's grammar allows and its parser does not (`C73_false_opaque_base`). -/
theorem C73_no_errors_partial (env : Env) (he : EnvOK env) (hi : IdnaOK env) (hst : StrictOK env) (s : Str) (base : Option Rec)
    (e : Encoding) (scheme : Str) (hb : ∀ b t, base = some b → b.path = .opaque t → HasScheme s)
    (hl : env.maxStrDigits = 0 ∨ s.length ≤ env.maxStrDigits)
    (h : ValidURL (PlainHost env) PlainOpaque base scheme s) :
    ∃ u, basicParse env s base e = ⟨.ok (), u, []⟩ ∧ u.scheme = scheme := by
  obtain ⟨h1, h2, h3⟩ := plainHosts_ok he hi hst
  exact basicParse_silent h1 h2 h3 e hb hl h

/-- the base URL that a base argument stands for; a string must be parsed without a validation error -/
def BaseIs (env : Env) (e : Encoding) : BaseArg → Option Rec → Prop
  | .none, b => b = none
  | .record r, b => b = some r
  | .str t, b => ∃ r, b = some r ∧ parseUrl env.recording t .none e = .ok r

/-- C73 (partial). `is_valid` says yes to every valid URL string with a registered scheme.

Missing: as for `C73_no_errors_partial`. -/
theorem C73_valid_partial (env : Env) (he : EnvOK env) (hi : IdnaOK env) (hst : StrictOK env) (s : Str) (arg : BaseArg)
    (e : Encoding) (base : Option Rec) (hbase : BaseIs env e arg base) (scheme : Str)
    (hreg : (isValidUrlScheme env scheme).res = .ok true)
    (hb : ∀ b t, base = some b → b.path = .opaque t → HasScheme s)
    (hl : env.maxStrDigits = 0 ∨ s.length ≤ env.maxStrDigits)
    (h : ValidURL (PlainHost env) PlainOpaque base scheme s) :
    (urlIsValid env s arg e).res = .ok true ∧ (urlIsValid env s arg e).validity.errorTypes = [] := by
  obtain ⟨u, hu, hsch⟩ := C73_no_errors_partial env.recording he hi.recording ⟨hst.same, hst.result, hst.empty, hst.source⟩ s base e
    scheme hb hl h
  have hp : parseUrl env.recording s arg e = .ok u := by
    cases arg with
    | none =>
      cases hbase
      unfold parseUrl
      dsimp only
      rw [hu]
      rfl
    | record r =>
      cases hbase
      unfold parseUrl
      dsimp only
      rw [hu]
      rfl
    | str t =>
      obtain ⟨r, rfl, ht⟩ := hbase
      unfold parseUrl at ht ⊢
      dsimp only at ht ⊢
      have h1 : (basicParse env.recording t none e).toExcept = .ok r := congrArg Res.res ht
      have h2 : (basicParse env.recording t none e).log ++ [] = [] := congrArg Res.log ht
      rw [List.append_nil] at h2
      rw [h1]
      dsimp only
      rw [hu, h2]
      rfl
  have hv : (isValidUrlScheme env scheme) = ⟨.ok true, {}⟩ := by
    unfold isValidUrlScheme at hreg ⊢
    dsimp only at hreg ⊢
    split at hreg
    · rename_i hr
      rw [if_pos hr]
    · cases hreg
  unfold urlIsValid
  rw [hp]
  show (Except.ok _ : Except Err Bool) = _ ∧ _
  dsimp only [Res.ok]
  rw [hsch, hv]
  exact ⟨rfl, rfl⟩

/-- C73 is false for a base with an opaque path: "x" is a valid URL string with the base "mailto:a", by the standard's
grammar, and neither the standard nor the code parses it. -/
theorem C73_false_opaque_base (env : Env) (e : Encoding) (vh vo : Str → Prop) :
    let b : Rec := { scheme := u!"mailto", path := .opaque u!"a" }
    ValidURL vh vo (some b) u!"mailto" u!"x" ∧ (urlIsValid env u!"x" (.record b) e).res = .ok false := by
  refine ⟨⟨u!"x", [], [], rfl, .inl rfl, .inl rfl, .inr ⟨_, rfl, rfl, ?_⟩⟩, rfl⟩
  unfold Spec.RelativeURL
  rw [if_neg (by decide), if_neg (by decide)]
  refine .inr (.inr ⟨⟨⟨[u!"x"], ?_, rfl⟩, by decide⟩, ?_⟩)
  · intro p hp
    simp only [List.mem_cons, List.not_mem_nil, or_false] at hp
    subst hp
    exact .point (by decide) (by decide) .nil
  · rintro ⟨sc, rest, ⟨c, cs, rfl, -⟩, h⟩
    have := congrArg List.length h
    simp at this

/-- C73 is false for an IPv6 address that C15 is about. -/
theorem C73_false_ipv6 :
    ValidURL (ValidHostString (exEnvStd3.nameToAscii true) (exEnvStd3.nameToUnicode true)) OpaqueHostString none u!"http"
      u!"http://[1:2:3:4:5:6:7::]/" ∧ (urlIsValid exEnvStd3 u!"http://[1:2:3:4:5:6:7::]/").res = .ok false := by
  refine ⟨⟨u!"http://[1:2:3:4:5:6:7::]/", [], [], rfl, .inl rfl, .inl rfl, .inl ⟨u!"http", u!"//[1:2:3:4:5:6:7::]/",
    ⟨104, u!"ttp", rfl, by decide, by decide⟩, by decide, rfl, ?_⟩⟩, by decide +kernel⟩
  rw [if_neg (by decide), if_pos (by decide)]
  refine ⟨u!"[1:2:3:4:5:6:7::]", [], u!"/", rfl, .inr (.inr ⟨u!"1:2:3:4:5:6:7::", rfl, by decide +kernel⟩), .inl rfl, .inr ⟨[], rfl, ?_⟩⟩
  exact ⟨⟨[], by simp, rfl⟩, by simp⟩

/-- The converse of C73 is false: a URL whose path starts with an empty segment is no valid URL string, and `is_valid` says
yes, like the standard's parser. -/
theorem C73_false_converse :
    (urlIsValid exEnvStd3 u!"http://h//x").res = .ok true ∧
      ∀ (vh vo : Str → Prop) (scheme : Str), (∀ h, vh h → c!"/" ∉ h) → ¬ ValidURL vh vo none scheme u!"http://h//x" := by
  refine ⟨by decide +kernel, ?_⟩
  rintro vh vo scheme hvh ⟨front, q, f, hs, hq, hf, h⟩
  -- no query, no fragment
  have hm : ∀ c ∈ q ++ f, c ∈ u!"http://h//x" := by
    intro c hc
    rw [hs, List.append_assoc]
    exact List.mem_append_right _ hc
  have hq' : q = [] := by
    rcases hq with rfl | ⟨q, rfl, -⟩
    · rfl
    · exact absurd (hm c!"?" (by simp)) (by decide)
  subst hq'
  have hf' : f = [] := by
    rcases hf with rfl | ⟨f, rfl, -⟩
    · rfl
    · exact absurd (hm c!"#" (by simp)) (by decide)
  subst hf'
  rw [List.append_nil, List.append_nil] at hs
  subst hs
  rcases h with ⟨sc, rest, ⟨c, cs, rfl, hc, hcs⟩, rfl, he, h⟩ | ⟨b, hb, -⟩
  · -- the scheme is "http"
    have hno : c!":" ∉ c :: cs := by
      intro hm
      rcases List.mem_cons.1 hm with rfl | hm
      · revert hc; decide
      · have := hcs _ hm; revert this; decide
    have hsc : c :: cs = u!"http" ∧ rest = u!"//h//x" := by
      have h1 : (u!"http://h//x").takeWhile (· ≠ c!":") = c :: cs := by
        rw [he, List.takeWhile_append_of_pos]
        · simp
        · intro x hx
          simp only [ne_eq, decide_not, Bool.not_eq_eq_eq_not, Bool.not_true, decide_eq_false_iff_not]
          rintro rfl
          exact hno hx
      have h2 : c :: cs = u!"http" := by rw [← h1]; decide
      rw [h2] at he
      simp only [List.cons_append, List.nil_append, List.cons.injEq, true_and] at he
      exact ⟨h2, he.symm⟩
    obtain ⟨h1, rfl⟩ := hsc
    rw [h1, if_neg (by decide), if_pos (by decide)] at h
    obtain ⟨host, port, path, he, hh, hpo, hpa⟩ := h
    simp only [List.cons_append, List.nil_append, List.append_assoc, List.cons.injEq, true_and] at he
    -- the first slash is the start of the path
    have hpath : path = u!"//x" := by
      have h1 : (u!"h//x").dropWhile (· ≠ c!"/") = path.dropWhile (· ≠ c!"/") := by
        rw [he, ← List.append_assoc, List.dropWhile_append_of_pos]
        intro x hx
        simp only [ne_eq, decide_not, Bool.not_eq_eq_eq_not, Bool.not_true, decide_eq_false_iff_not]
        rintro rfl
        rcases List.mem_append.1 hx with hx | hx
        · exact hvh host hh hx
        · exact absurd (portPart_chars hpo _ hx) (by decide)
      rcases hpa with rfl | ⟨p, rfl, -⟩
      · revert h1; decide
      · rw [show List.dropWhile (· ≠ c!"/") (c!"/" :: p) = c!"/" :: p from rfl] at h1
        rw [← h1]; decide
    rcases hpa with rfl | ⟨p, rfl, hp⟩
    · cases hpath
    · cases hpath
      exact hp.2 rfl
  · cases hb

/-! ### The example meets the hypotheses -/

theorem exEnvStd3_plain (d : Str) : Spec.domainToASCII (exEnvStd3.nameToAscii false) d =
    if (d.map mapped).all (· < 128) = true ∧ d.map mapped ≠ [] then some (d.map mapped) else none := by
  unfold Spec.domainToASCII exEnvStd3
  simp only [Bool.false_and, Bool.false_eq_true, if_false]
  by_cases h : (d.map mapped).all (· < 128) = true
  · simp only [h, if_true, true_and]
    have : Spec.noOtherError (if d.head? = some c!"-" then 8 else 0) := by split <;> decide
    simp only [this, true_and]
  · simp only [h]
    simp

theorem exEnvStd3_ok {d a : Str} (h : Spec.domainToASCII (exEnvStd3.nameToAscii false) d = some a) :
    domainToAscii exEnvStd3 d false = .ok a := by
  rw [← domainToAscii_std] at h
  rcases hr : domainToAscii exEnvStd3 d false with ⟨r, log⟩
  rw [hr] at h
  cases r with
  | error e => cases h
  | ok a' =>
    cases h
    rw [domainToAscii_ok_log hr]
    rfl

theorem exEnvStd3_idna : IdnaOK exEnvStd3 := by
  have key : ∀ d a log, domainToAscii exEnvStd3 d false = ⟨.ok a, log⟩ →
      (d.map mapped).all (· < 128) = true ∧ d.map mapped ≠ [] ∧ a = d.map mapped := by
    intro d a log h
    have h1 : Spec.domainToASCII (exEnvStd3.nameToAscii false) d = some a := by rw [← domainToAscii_std, h]; rfl
    rw [exEnvStd3_plain] at h1
    split at h1
    · rename_i h2
      cases h1
      exact ⟨h2.1, h2.2, rfl⟩
    · cases h1
  have hmm : ∀ c, mapped (mapped c) = mapped c := by
    intro c
    simp only [mapped, lowerC, Bool.and_eq_true, decide_eq_true_eq]
    repeat' split
    all_goals first | rfl | omega
  refine ⟨?_, ?_, ?_⟩
  · intro d a log h c hc
    obtain ⟨h1, h2, rfl⟩ := key d a log h
    simpa using List.all_eq_true.1 h1 c hc
  · intro d a log h
    obtain ⟨h1, h2, rfl⟩ := key d a log h
    refine exEnvStd3_ok ?_
    rw [exEnvStd3_plain]
    have : (d.map mapped).map mapped = d.map mapped := by
      rw [List.map_map]
      exact List.map_congr_left fun c _ => hmm c
    rw [this, if_pos ⟨h1, h2⟩]
  · intro s hne hs
    refine exEnvStd3_ok ?_
    rw [exEnvStd3_plain]
    have : s.map mapped = s := by
      conv => rhs; rw [← List.map_id s]
      refine List.map_congr_left fun c hc => ?_
      have := hs c hc
      rw [isDigit_spec, isDigit_iff] at this
      simp only [mapped, lowerC, Bool.and_eq_true, decide_eq_true_eq, id]
      rw [if_neg (by omega), if_neg (by omega)]
    have hall : s.all (· < 128) = true := by
      rw [List.all_eq_true]
      intro c hc
      have := hs c hc
      rw [isDigit_spec, isDigit_iff] at this
      simp only [decide_eq_true_eq]
      omega
    rw [this, if_pos ⟨hall, hne⟩]

/-- the host of the example -/
theorem exPlainHost : PlainHost exEnvStd3 u!"-A①.Example" := by
  have h2 : strictToASCII (exEnvStd3.nameToAscii true) u!"-A①.Example" = some u!"-a1.example" := by decide +kernel
  refine .inl ⟨by unfold IsScalarStr Spec.Surrogate; decide, ⟨u!"-a1.example", h2, u!"-a1.example", 0, by decide +kernel, by decide⟩, ?_⟩
  intro a ha
  rw [h2] at ha
  cases ha
  refine ⟨by decide +kernel, fun p hp => ?_⟩
  rw [show (Spec.ipv4Parts u!"-a1.example").getLast? = some u!"example" by decide] at hp
  cases hp
  exact strictPart_of_int exEnvStd3 (by decide) (.inr (by decide)) (by decide)

-- a URL with a scheme in capitals, a host to be mapped, a port with leading zeros, dots in the path, a query and a fragment
example : (urlIsValid exEnvStd3 u!"HTTP://-A①.Example:0080/a%20b/../é?q=1#f").res = .ok true := by
  refine (C73_valid_partial exEnvStd3 (.inr (by decide)) exEnvStd3_idna exEnvStd3_strict _ .none .utf8 none rfl u!"http"
    (by decide +kernel) (fun b t h => by cases h) (.inr (by decide))
    ⟨u!"HTTP://-A①.Example:0080/a%20b/../é", u!"?q=1", u!"#f", rfl, .inr ⟨u!"q=1", rfl, ?_⟩, .inr ⟨u!"f", rfl, ?_⟩,
      .inl ⟨u!"HTTP", u!"//-A①.Example:0080/a%20b/../é", ⟨72, u!"TTP", rfl, by decide, by decide⟩, by decide, rfl, ?_⟩⟩).1
  · exact .point (by decide) (by simp) (.point (by decide) (by simp) (.point (by decide) (by simp) .nil))
  · exact .point (by decide) (by simp) .nil
  · rw [if_neg (by decide), if_pos (by decide)]
    refine ⟨u!"-A①.Example", u!":0080", u!"/a%20b/../é", rfl, exPlainHost, .inr ⟨u!"0080", rfl, by decide, by decide⟩,
      .inr ⟨u!"a%20b/../é", rfl, ⟨[u!"a%20b", u!"..", u!"é"], ?_, rfl⟩, by decide⟩⟩
    intro p hp
    simp only [List.mem_cons, List.not_mem_nil, or_false] at hp
    rcases hp with rfl | rfl | rfl
    · exact .point (by decide) (by decide) (.byte (by decide) (by decide) (.point (by decide) (by decide) .nil))
    · exact .point (by decide) (by decide) (.point (by decide) (by decide) .nil)
    · exact .point (by decide) (by decide) .nil
-- a relative reference to a base given as a string
example : (urlIsValid exEnvStd3 u!"../x?y" (.str u!"https://h/a/b")).res = .ok true := by
  let b : Rec := { scheme := u!"https", host := some (.str u!"h"), path := .list [u!"a", u!"b"] }
  have hp : parseUrl exEnvStd3.recording u!"https://h/a/b" .none .utf8 = .ok b := by
    have h1 : (parseUrl exEnvStd3.recording u!"https://h/a/b" .none .utf8).val = some b := by decide +kernel
    have h2 : (parseUrl exEnvStd3.recording u!"https://h/a/b" .none .utf8).log = [] := by decide +kernel
    revert h1 h2
    rcases parseUrl exEnvStd3.recording u!"https://h/a/b" .none .utf8 with ⟨_ | _, l⟩ <;> rintro h1 h2 <;> cases h1
    cases h2
    rfl
  refine (C73_valid_partial exEnvStd3 (.inr (by decide)) exEnvStd3_idna exEnvStd3_strict _ (.str u!"https://h/a/b") .utf8 (some b)
    ⟨b, rfl, hp⟩ u!"https" (by decide +kernel) (fun _ t h1 h2 => by cases h1; cases h2) (.inr (by decide))
    ⟨u!"../x", u!"?y", [], rfl, .inr ⟨u!"y", rfl, .point (by decide) (by simp) .nil⟩, .inl rfl, .inr ⟨b, rfl, rfl, ?_⟩⟩).1
  unfold Spec.RelativeURL
  rw [if_neg (by decide), if_pos (by decide)]
  refine .inr (.inr ⟨⟨⟨[u!"..", u!"x"], ?_, rfl⟩, by decide⟩, ?_⟩)
  · intro p hp
    simp only [List.mem_cons, List.not_mem_nil, or_false] at hp
    rcases hp with rfl | rfl
    · exact .point (by decide) (by decide) (.point (by decide) (by decide) .nil)
    · exact .point (by decide) (by decide) .nil
  · rintro ⟨sc, rest, ⟨c, cs, rfl, hc, -⟩, h⟩
    have h := (List.cons.inj h).1
    subst h
    revert hc
    decide
-- the verdicts on some other texts
example : (urlIsValid exEnvStd3 u!"http://h/a b").res = .ok false ∧ (urlIsValid exEnvStd3 u!"http:/h/").res = .ok false ∧
    (urlIsValid exEnvStd3 u!"http://h/%2").res = .ok false ∧ (urlIsValid exEnvStd3 u!"http://u@h/").res = .ok false ∧
    (urlIsValid exEnvStd3 u!"x://h/").res = .ok false := by decide +kernel

end Urlstd.Props
