/-
Property C76: the `href` of a URL does not depend on a base. An addition to C41.
-/
import Verif.Lemmas.AnyBase
import Verif.Props.History
import Verif.Props.Reference
import Verif.Props.Input

namespace Urlstd.Props

open Spec (IsStr SchemeText Special Surrogate)

/-! ### C41 -/

/-- C41. Two encodings that agree on the characters of the input, and of a base given as a string, give the same result. The
characters are scalar values. -/
theorem C41_agreeing_encodings (env : Env) (s : Str) (base : BaseArg) (e e' : Encoding)
    (hs : ∀ c ∈ s, c ≤ 0x10FFFF ∧ ¬ Surrogate c ∧ e.enc c = e'.enc c)
    (hb : ∀ b, base = .str b → ∀ c ∈ b, c ≤ 0x10FFFF ∧ ¬ Surrogate c ∧ e.enc c = e'.enc c) :
    (parseUrl env s base e).res = (parseUrl env s base e').res := by
  cases base with
  | none => exact basicParse_agree env none hs
  | record b => exact basicParse_agree env (some b) hs
  | str b =>
    rw [parseUrl_str, parseUrl_str, basicParse_agree env none (hb b rfl)]
    cases (basicParse env b none e').toExcept with
    | error _ => rfl
    | ok r => exact basicParse_agree env (some r) hs

example : (parseUrl exEnv u!"http://h/a?b c#d" .none exLatin).res = (parseUrl exEnv u!"http://h/a?b c#d").res :=
  C41_agreeing_encodings _ _ _ _ _ (by decide +kernel) (by intro b h; cases h)

/-! ### C76 -/

/-- C76. A text that starts with a scheme, ":" and "//" has the same result with any base as without one, whatever the
scheme (compare C35, where two slashes are not required). -/
theorem C76_slashes_ignore_base (env : Env) (sc rest : Str) (h : SchemeText sc) (b : Rec) (e : Encoding) :
    (parseUrl env (sc ++ u!"://" ++ rest) (.record b) e).res = (parseUrl env (sc ++ u!"://" ++ rest) .none e).res := by
  rw [parseUrl_record, parseUrl_none, List.append_assoc]
  exact parse_slashes_free h (some b) none rest

example : (parseUrl exEnv (u!"HTTP" ++ u!"://" ++ u!"x/../y") (.record exRecord)).res =
    (parseUrl exEnv (u!"HTTP" ++ u!"://" ++ u!"x/../y")).res :=
  C76_slashes_ignore_base _ _ _ ⟨c!"H", u!"TTP", rfl, by decide, by decide⟩ _ _

/-- a lower-case scheme is a scheme -/
theorem schemeText_of_norm {s : Str} (h : Spec.NormScheme s) : SchemeText s ∧ Spec.toLower s = s := by
  obtain ⟨c, cs, rfl, hc, hcs⟩ := h
  refine ⟨⟨c, cs, rfl, .inr hc, fun x hx => ?_⟩, ?_⟩
  · rcases hcs x hx with h | h
    · exact .inl (.inr h)
    · exact .inr h
  · have key : ∀ x ∈ c :: cs, ¬ (c!"A" ≤ x ∧ x ≤ c!"Z") := by
      intro x hx
      rcases List.mem_cons.1 hx with rfl | hx
      · unfold Spec.LowerAlpha at hc; omega
      · have := hcs x hx
        unfold Spec.LowerAlpha Spec.Digit at this
        omega
    unfold Spec.toLower
    conv => rhs; rw [← List.map_id (c :: cs)]
    exact List.map_congr_left fun x hx => if_neg (key x hx)

/-- C76. After any history the `href` of a URL has the same result with any base as without one. (`env'` is the environment of
the call, for instance one that records validation errors.) -/
theorem C76_href_ignores_base (env env' : Env) (o : URLObj) (h : Reached env o) (b : Rec) (e : Encoding) :
    (parseUrl env' o.href (.record b) e).res = (parseUrl env' o.href .none e).res := by
  have hw := (h.objOK (hostSpec_true _)).url
  obtain ⟨hsc, hlow⟩ := schemeText_of_norm hw.auth.scheme.spec
  rw [parseUrl_record, parseUrl_none]
  unfold URLObj.href
  cases hh : o.url.host with
  | none =>
    have : isSpecialScheme o.url.scheme = false := by
      cases hs : isSpecialScheme o.url.scheme with
      | false => rfl
      | true => exact absurd hh (hw.auth.special hs).1
    have hser : ∃ r, o.url.serialize = o.url.scheme ++ 58 :: r := by
      rw [serialize_split]
      unfold Rec.beforePath
      exact ⟨_, by simp only [List.append_assoc]; rfl⟩
    obtain ⟨r, hr⟩ := hser
    rw [hr]
    exact parse_absolute hsc (.inl (by rw [hlow]; exact this)) r
  | some x =>
    have hser : ∃ r, o.url.serialize = o.url.scheme ++ 58 :: 47 :: 47 :: r := by
      rw [serialize_split]
      unfold Rec.beforePath
      rw [hh]
      exact ⟨_, by simp only [List.append_assoc]; rfl⟩
    obtain ⟨r, hr⟩ := hser
    rw [hr]
    exact parse_slashes_free hsc (some b) none r

-- the base has the scheme of the URL, a host and a path of its own
example : (parseUrl exEnv exStart.href (.record exRecord)).res = .ok exStart.url := by
  rw [C76_href_ignores_base _ _ _ exStart_reached]
  decide +kernel

/-- C76 for `URL` objects: `URL(url.href, base)` is `URL(url.href)` for every base, a URL or a string that parses. A string
that does not parse is the only other case, where the exception is that of parsing the string. -/
theorem C76_url (env : Env) (o : URLObj) (h : Reached env o) (base : UrlBase) :
    URLObj.new env o.href base =
      match base with
      | .str s => (URLObj.new env s).bind fun _ => URLObj.new env o.href
      | _ => URLObj.new env o.href := by
  have key := fun b => C76_href_ignores_base env env.quiet o h b .utf8
  cases base with
  | none => rfl
  | url b =>
    unfold URLObj.new
    show (match (parseUrl env.quiet o.href (.record b.url)).res with | .ok r => _ | .error e => _) =
      (match (parseUrl env.quiet o.href).res with | .ok r => _ | .error e => _)
    rw [key]
  | str s =>
    unfold URLObj.new
    show (match (parseUrl env.quiet o.href (.str s)).res with
        | .ok r => Except.ok (⟨r, spOfQuery r.query⟩ : URLObj) | .error e => .error e) =
      (match (parseUrl env.quiet s).res with
        | .ok r => Except.ok (⟨r, spOfQuery r.query⟩ : URLObj) | .error e => .error e).bind fun _ =>
      (match (parseUrl env.quiet o.href).res with
        | .ok r => Except.ok (⟨r, spOfQuery r.query⟩ : URLObj) | .error e => .error e)
    rw [parseUrl_str, parseUrl_none]
    cases hs : (basicParse env.quiet s none .utf8).toExcept with
    | error e => rfl
    | ok r =>
      have := key r
      rw [parseUrl_record] at this
      exact congrArg (fun x : Except Err Rec => (match x with
        | .ok r => Except.ok (⟨r, spOfQuery r.query⟩ : URLObj) | .error e => .error e)) this

example : URLObj.new exEnv exStart.href (.url devPort) = URLObj.new exEnv exStart.href := C76_url _ _ exStart_reached _
-- a string that does not parse
example : (URLObj.new exEnv exStart.href (.str u!"x")).isOk = false := by decide +kernel

/-- C76, resolving once more: what `URL(r, b)` gives for a text and a base has an `href` that resolves to itself against the
same base, and against any other. -/
theorem C76_resolved (env : Env) (he : EnvOK env) (hi : IdnaOK env) (r : Str) (base : BaseArg) (e e' : Encoding) (u : Rec)
    (hs : IsStr r) (hb : BaseOK env base) (henc : EncOK e) (h : (parseUrl env r base e).res = .ok u) (b : Rec)
    (hascii : ∀ c, c < 128 → e'.enc c = some [c]) :
    ∃ v, (parseUrl env u.serialize (.record b) e').res = .ok v ∧ v.serialize = u.serialize ∧
      v.path = u.path ∧ v.query = u.query ∧ v.fragment = u.fragment := by
  have hw := (parseUrl_parsed hs hb henc h).wf (hostSpec_wf hi)
  have hbp : (parseUrl env u.serialize (.record b)).res = .ok u.canon := basicParse_serialize (base := some b) he hi hw
  refine ⟨u.canon, ?_, serialize_canon u false, rfl, rfl, rfl⟩
  rw [← hbp]
  refine C41_agreeing_encodings env _ _ _ _ (fun c hc => ?_) (by intro _ h; cases h)
  have := hw.hrefOK.1 c hc
  unfold Spec.Printable at this
  refine ⟨by omega, by unfold Surrogate; omega, ?_⟩
  rw [hascii c (by omega)]
  show some [c] = some (utf8EncodeCP c)
  unfold utf8EncodeCP
  rw [if_pos (by omega)]

example : ∃ v, (parseUrl exEnv exRecord.serialize (.record exFile) exLatin).res = .ok v ∧
    v.serialize = exRecord.serialize ∧ v.path = exRecord.path ∧ v.query = exRecord.query ∧ v.fragment = exRecord.fragment :=
  C76_resolved exEnv (.inr (by decide)) exEnv_idna u!"http://u:p@ex.com:8080/a/b/../c d?é'#x" .none .utf8 _ _ (by decide) trivial
    trivial (by decide +kernel) _ (by intro c hc; unfold exLatin Encoding.enc; dsimp only; rw [if_pos hc])

/-- C76 after any history: the `href` resolves to itself against every base URL unless, and only unless, the URL is one of
the deviant ones (C46). -/
theorem C76_exact (env : Env) (he : EnvOK env) (hi : IdnaOK env) (o b : URLObj) (h : Reached env o) :
    (∃ o', URLObj.new env o.href (.url b) = .ok o' ∧ o'.href = o.href) ↔ ¬ Spec.Deviant o.url := by
  rw [C76_url env o h]
  exact C46_exact env he hi o h

example : ∃ o', URLObj.new exEnv exStart.href (.url exStart) = .ok o' ∧ o'.href = exStart.href :=
  (C76_exact exEnv (.inr (by decide)) exEnv_idna _ _ exStart_reached).2 (by
    rintro (⟨h, -⟩ | ⟨h, -⟩)
    · exact absurd h (by decide +kernel)
    · exact absurd h (by decide +kernel))

end Urlstd.Props
