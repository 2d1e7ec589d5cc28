/-
Properties C29 and C30: parsing what the serializer writes.
-/
import Verif.Props.Parsed

namespace Urlstd.Props

open Spec (IsStr)

/-! ### C29 -/

/-- C29. The serialization of a parsed URL parses, to a URL with the same serialization. -/
theorem C29_href_fixed_point (env : Env) (he : EnvOK env) (hi : IdnaOK env) (u : Rec) (h : Parsed env u) :
    ∃ v, (parseUrl env u.serialize).res = .ok v ∧ v.serialize = u.serialize :=
  ⟨u.canon, basicParse_serialize he hi (h.wf (hostSpec_wf hi)), serialize_canon u false⟩

/-- C29 for `URL` objects: `URL(url.href).href == url.href`. -/
theorem C29_url_href (env : Env) (he : EnvOK env) (hi : IdnaOK env) (s : Str) (hs : IsStr s) (o : URLObj)
    (h : URLObj.new env s = .ok o) : ∃ o', URLObj.new env o.href = .ok o' ∧ o'.href = o.href := by
  unfold URLObj.new at h
  cases hp : (parseUrl env.quiet s UrlBase.none.arg).res with
  | error e => rw [hp] at h; cases h
  | ok u =>
    rw [hp] at h
    cases h
    obtain ⟨v, hv, hser⟩ := C29_href_fixed_point env.quiet he hi.quiet u (.alone hs (e := .utf8) trivial hp)
    refine ⟨⟨v, spOfQuery v.query⟩, ?_, hser⟩
    unfold URLObj.new
    show (match (parseUrl env.quiet u.serialize).res with
      | .ok r => Except.ok (⟨r, spOfQuery r.query⟩ : URLObj)
      | .error e => .error e) = _
    rw [hv]

example : exRecord.serialize = u!"http://u:p@ex.com:8080/a/c%20d?%C3%A9%27#x" := by decide +kernel
example : ∃ v, (parseUrl exEnv exRecord.serialize).res = .ok v ∧ v.serialize = exRecord.serialize :=
  C29_href_fixed_point _ (.inr (by decide)) exEnv_idna _ exRecord_parsed

/-! ### C30 -/

/-- C30 is false: an IPv4 host can have an address of more than 32 bits, which is cut when it is
serialized. -/
theorem C30_false_ipv4_overflow :
    ∃ u v, Parsed exEnv u ∧ (parseUrl exEnv u.serialize).res = .ok v ∧
      u.host = some (.ipv4 (2 ^ 32 + 256)) ∧ v.host = some (.ipv4 256) :=
  ⟨{ scheme := u!"http", host := some (.ipv4 (2 ^ 32 + 256)), path := .list [[]] },
    { scheme := u!"http", host := some (.ipv4 256), path := .list [[]] },
    .alone (s := u!"http://256.256/") (e := .utf8) (by decide) trivial (by decide +kernel), by decide +kernel, rfl, rfl⟩

/-- C30. Parsing the serialization gives all components back, except that the number of an IPv4 host
is reduced to 32 bits. -/
theorem C30_components (env : Env) (he : EnvOK env) (hi : IdnaOK env) (u : Rec) (h : Parsed env u) :
    ∃ v, (parseUrl env u.serialize).res = .ok v ∧ v.scheme = u.scheme ∧ v.username = u.username ∧
      v.password = u.password ∧ v.port = u.port ∧ v.path = u.path ∧ v.query = u.query ∧ v.fragment = u.fragment ∧
      (v.host = u.host ∨ ∃ n, u.host = some (.ipv4 n) ∧ v.host = some (.ipv4 (n % 2 ^ 32))) := by
  refine ⟨u.canon, basicParse_serialize he hi (h.wf (hostSpec_wf hi)), rfl, rfl, rfl, rfl, rfl, rfl, rfl, ?_⟩
  show u.host.map Host.canon = u.host ∨ ∃ n, _ ∧ u.host.map Host.canon = _
  cases hh : u.host with
  | none => exact .inl rfl
  | some x =>
    cases x with
    | str s => exact .inl rfl
    | ipv4 n => exact .inr ⟨n, rfl, rfl⟩
    | ipv6 a => exact .inl rfl

/-- C30 (partial: without an IPv4 host of more than 32 bits). Parsing the serialization gives the
record. -/
theorem C30_record_partial (env : Env) (he : EnvOK env) (hi : IdnaOK env) (u : Rec) (h : Parsed env u)
    (h4 : ∀ n, u.host = some (.ipv4 n) → n < 2 ^ 32) : (parseUrl env u.serialize).res = .ok u := by
  have : u.canon = u := by
    unfold Rec.canon
    cases hh : u.host with
    | none => simp only [Option.map_none]; rw [← hh]
    | some x =>
      have hx : x.canon = x := by
        cases x with
        | str s => rfl
        | ipv4 n => exact congrArg Host.ipv4 (Nat.mod_eq_of_lt (h4 n hh))
        | ipv6 a => rfl
      simp only [Option.map_some, hx]; rw [← hh]
  have key : (basicParse env u.serialize none .utf8).toExcept = .ok u := by
    conv => rhs; rw [← this]
    exact basicParse_serialize he hi (h.wf (hostSpec_wf hi))
  exact key

example : (parseUrl exEnv exRecord.serialize).res = .ok exRecord :=
  C30_record_partial _ (.inr (by decide)) exEnv_idna _ exRecord_parsed (by intro n h; cases h)

end Urlstd.Props
