/-
Properties C45, C46 and C48: histories of a `URL` object.
-/
import Verif.Lemmas.History
import Verif.Lemmas.Injective
import Verif.Props.Setter

set_option linter.unusedSimpArgs false
set_option linter.unusedVariables false

namespace Urlstd.Props

open Spec (IsStr Deviant)

/-! ### Examples -/

/-- an object reached from "http://h/a?x=1#f" by several operations, one of which raises an exception -/
def exHistory : List Op :=
  [.username u!"ü", .port u!"8080", .spAppend u!"é" (.str u!"&"), .host u!"[", .pathname u!"/a/../b c", .hash u!"",
    .spSort, .protocol u!"wss"]

theorem _root_.Urlstd.Reached.op' {env : Env} {o o' : URLObj} {op : Op} (h : Reached env o) (hop : op.IsStr)
    (e : (applyOp env o op).2 = o') : Reached env o' := e ▸ .op h hop

theorem reached_ops {env : Env} {o : URLObj} (h : Reached env o) {ops : List Op} (hops : ∀ op ∈ ops, op.IsStr) :
    Reached env (applyOps env o ops) := by
  induction ops generalizing o with
  | nil => exact h
  | cons op ops ih => exact ih (.op h (hops op (by simp))) fun x hx => hops x (by simp [hx])

def exStart : URLObj := ⟨{ scheme := u!"http", host := some (.str u!"h"), path := .list [u!"a"],
                             query := some u!"x=1", fragment := some u!"f" }, [(u!"x", u!"1")]⟩

theorem exStart_reached : Reached exEnv exStart := .new (s := u!"http://h/a?x=1#f") (by decide) (by decide +kernel)

theorem exHistory_str : ∀ op ∈ exHistory, op.IsStr := by
  intro op hop
  simp only [exHistory, List.mem_cons, List.not_mem_nil, or_false] at hop
  rcases hop with rfl | rfl | rfl | rfl | rfl | rfl | rfl | rfl
  · show IsStr _; decide
  · show IsStr _; decide
  · show IsStr _ ∧ IsStr _; decide
  · show IsStr _; decide
  · show IsStr _; decide
  · show IsStr _; decide
  · trivial
  · show IsStr _; decide

example : (applyOps exEnv exStart exHistory).href = u!"wss://%C3%BC@h:8080/b%20c?x=1&%C3%A9=%26" := by decide +kernel
example : (applyOp exEnv exStart (.host u!"[")).1 = .error .ipv6Parse := by decide +kernel

/-! ### C45 -/

/-- "foo://h:0/" after `host = ""`: "foo://:0/" -/
def devPort : URLObj := ⟨{ scheme := u!"foo", host := some (.str []), port := some 0, path := .list [[]] }, []⟩
/-- "http://h:0/" after `protocol = "file"` -/
def devFilePort : URLObj := ⟨{ scheme := u!"file", host := some (.str u!"h"), port := some 0, path := .list [[]] }, []⟩
/-- "http://localhost/" after `protocol = "file"` -/
def devLocalhost : URLObj := ⟨{ scheme := u!"file", host := some (.str u!"localhost"), path := .list [[]] }, []⟩
/-- "http://h/C|/x" after `protocol = "file"` -/
def devDrive : URLObj := ⟨{ scheme := u!"file", host := some (.str u!"h"), path := .list [u!"C|", u!"x"] }, []⟩

theorem devPort_reached : Reached exEnv devPort := by
  have h : Reached exEnv ⟨{ scheme := u!"foo", host := some (.str u!"h"), port := some 0, path := .list [[]] }, []⟩ :=
    .new (s := u!"foo://h:0/") (by decide) (by decide +kernel)
  exact h.op' (op := .host []) (show IsStr [] by decide) (by decide +kernel)

theorem devFilePort_reached : Reached exEnv devFilePort := by
  have h : Reached exEnv ⟨{ scheme := u!"http", host := some (.str u!"h"), port := some 0, path := .list [[]] }, []⟩ :=
    .new (s := u!"http://h:0/") (by decide) (by decide +kernel)
  exact h.op' (op := .protocol u!"file") (show IsStr u!"file" by decide) (by decide +kernel)

theorem devLocalhost_reached : Reached exEnv devLocalhost := by
  have h : Reached exEnv ⟨{ scheme := u!"http", host := some (.str u!"localhost"), path := .list [[]] }, []⟩ :=
    .new (s := u!"http://localhost/") (by decide) (by decide +kernel)
  exact h.op' (op := .protocol u!"file") (show IsStr u!"file" by decide) (by decide +kernel)

theorem devDrive_reached : Reached exEnv devDrive := by
  have h : Reached exEnv ⟨{ scheme := u!"http", host := some (.str u!"h"), path := .list [u!"C|", u!"x"] }, []⟩ :=
    .new (s := u!"http://h/C|/x") (by decide) (by decide +kernel)
  exact h.op' (op := .protocol u!"file") (show IsStr u!"file" by decide) (by decide +kernel)

/-- C45 is false in one respect: the port 0 counts as no port, so the host can become empty, or the
scheme "file", while the port stays. -/
theorem C45_false_port_zero : (∃ o, Reached exEnv o ∧ o.url.host = some (.str []) ∧ o.url.port = some 0) ∧
    (∃ o, Reached exEnv o ∧ o.url.scheme = u!"file" ∧ o.url.port = some 0) ∧
    (∃ o, Reached exEnv o ∧ ¬ Spec.BareWithoutHost o.url) := by
  refine ⟨⟨_, devPort_reached, rfl, rfl⟩, ⟨_, devFilePort_reached, rfl, rfl⟩, _, devPort_reached, fun h => ?_⟩
  have := (h (.inr (.inl rfl))).2.2
  cases this

/-- C45. Every reachable URL, however often it was modified: normalized scheme; host and path of a
special URL; nothing besides an opaque path; port; segments; query; fragment; credentials, and port
up to the exception above, with a host only. -/
theorem C45_guarantees_partial (env : Env) (o : URLObj) (h : Reached env o) :
    Spec.NormScheme o.url.scheme ∧ Spec.SpecialHasHost o.url ∧ Spec.OpaqueIsBare o.url ∧ Spec.PortOK o.url ∧
      Spec.SegmentsOK o.url ∧ Spec.QueryOK o.url ∧ Spec.FragmentOK o.url ∧ Spec.NearlyBare o.url := by
  have hw := (h.objOK (hostSpec_true _)).url
  exact ⟨hw.auth.scheme.spec, hw.specialHasHost, hw.opaqueIsBare, hw.portOK, hw.segmentsOK, hw.queryOK, hw.fragmentOK,
    hw.auth.bare0, hw.auth.null⟩

/-- C45. The `href` of every reachable URL is printable ASCII, with spaces in an opaque path only. -/
theorem C45_printable (env : Env) (hi : IdnaOK env) (o : URLObj) (h : Reached env o) : Spec.HrefOK o.url :=
  (h.objOK (hostSpec_wf hi.quiet)).url.hrefOK

/-- C45 (partial: unless the port is 0). Without a host, with an empty host, or with the scheme "file"
there are no credentials and no port. -/
theorem C45_bare_partial (env : Env) (o : URLObj) (h : Reached env o) (hp : o.url.port ≠ some 0) :
    Spec.BareWithoutHost o.url := by
  intro hb
  obtain ⟨h1, h2, h3⟩ := (h.objOK (hostSpec_true _)).url.auth.bare0 hb
  exact ⟨h1, h2, h3.elim id fun h => absurd h hp⟩

example : Reached exEnv (applyOps exEnv exStart exHistory) := reached_ops exStart_reached exHistory_str
example : Spec.HrefOK (applyOps exEnv exStart exHistory).url :=
  C45_printable _ exEnv_idna _ (reached_ops exStart_reached exHistory_str)
example : (applyOps exEnv exStart exHistory).url.port = some 8080 := by decide +kernel

/-! ### C46 -/

/-- C46 is false: four reachable URLs whose `href` does not parse, or parses to another `href`. -/
theorem C46_false :
    (Reached exEnv devPort ∧ URLObj.new exEnv devPort.href = .error .urlParse) ∧
    (Reached exEnv devFilePort ∧ URLObj.new exEnv devFilePort.href = .error .hostParse) ∧
    (Reached exEnv devLocalhost ∧ devLocalhost.href = u!"file://localhost/" ∧
      (URLObj.new exEnv devLocalhost.href).map URLObj.href = .ok u!"file:///") ∧
    (Reached exEnv devDrive ∧ devDrive.href = u!"file://h/C|/x" ∧
      (URLObj.new exEnv devDrive.href).map URLObj.href = .ok u!"file://h/C:/x") :=
  ⟨⟨devPort_reached, by decide +kernel⟩, ⟨devFilePort_reached, by decide +kernel⟩,
    ⟨devLocalhost_reached, by decide +kernel, by decide +kernel⟩,
    ⟨devDrive_reached, by decide +kernel, by decide +kernel⟩⟩

/-- C46 (partial: unless the port is 0 with an empty host or the scheme "file", or a "file" URL has the
host "localhost" or a path starting with a drive letter and "|"). After any history parsing the `href`
succeeds and gives the same `href`. -/
theorem C46_href_fixed_point_partial (env : Env) (he : EnvOK env) (hi : IdnaOK env) (o : URLObj) (h : Reached env o)
    (hd : ¬ Deviant o.url) : ∃ o', URLObj.new env o.href = .ok o' ∧ o'.href = o.href := by
  have hw := (h.objOK (hostSpec_wf hi.quiet)).url.strict hd
  have hv : (parseUrl env.quiet o.url.serialize).res = .ok o.url.canon :=
    basicParse_serialize (env := env.quiet) he hi.quiet hw
  refine ⟨⟨o.url.canon, spOfQuery o.url.canon.query⟩, ?_, serialize_canon o.url false⟩
  unfold URLObj.new
  show (match (parseUrl env.quiet o.url.serialize).res with
    | .ok r => Except.ok (⟨r, spOfQuery r.query⟩ : URLObj)
    | .error e => .error e) = _
  rw [hv]

/-- C46, exactly: after any history the `href` is a fixed point of parsing unless, and only unless, the URL is one of the
deviant ones. -/
theorem C46_exact (env : Env) (he : EnvOK env) (hi : IdnaOK env) (o : URLObj) (h : Reached env o) :
    (∃ o', URLObj.new env o.href = .ok o' ∧ o'.href = o.href) ↔ ¬ Deviant o.url := by
  refine ⟨?_, C46_href_fixed_point_partial env he hi o h⟩
  rintro ⟨o', hn, hh⟩
  have hw := (h.objOK (hostSpec_wf hi.quiet)).url
  have hs : IsStr o.href := by
    intro c hc
    have := (C45_printable env hi o h).1 c hc
    unfold Spec.Printable at this
    omega
  unfold URLObj.new at hn
  have hn : (match (parseUrl env.quiet o.href).res with
    | .ok r => Except.ok (⟨r, spOfQuery r.query⟩ : URLObj)
    | .error e => .error e) = .ok o' := hn
  cases hp : (parseUrl env.quiet o.href).res with
  | error x => rw [hp] at hn; cases hn
  | ok r =>
    rw [hp] at hn
    cases hn
    have hpar : Parsed env.quiet r := .alone (e := .utf8) hs trivial hp
    exact deviant_href hw (hpar.wf (hostSpec_wf hi.quiet)) hh.symm

/-- C46 for schemes other than "file": the only exception is the port 0 with an empty host. -/
theorem C46_not_file_partial (env : Env) (he : EnvOK env) (hi : IdnaOK env) (o : URLObj) (h : Reached env o)
    (hf : o.url.scheme ≠ u!"file") (hp : o.url.host = some (.str []) → o.url.port ≠ some 0) :
    ∃ o', URLObj.new env o.href = .ok o' ∧ o'.href = o.href := by
  refine C46_href_fixed_point_partial env he hi o h ?_
  rintro (⟨h1, h2 | h2⟩ | ⟨h1, _⟩)
  · exact hp h2 h1
  · exact hf h2
  · exact hf h1

example : ∃ o', URLObj.new exEnv (applyOps exEnv exStart exHistory).href = .ok o' ∧
    o'.href = (applyOps exEnv exStart exHistory).href :=
  C46_not_file_partial _ (.inr (by decide)) exEnv_idna _ (reached_ops exStart_reached exHistory_str)
    (by decide +kernel) (by decide +kernel)

/-! ### C48 -/

/-- C48. At every point of every history the parameters are those that parsing `search` gives. -/
theorem C48_params_of_search (env : Env) (o : URLObj) (h : Reached env o) : o.params = spOfStr o.search := by
  rw [(h.objOK (hostSpec_true _)).params]
  unfold URLObj.search spOfQuery
  cases o.url.query with
  | none => rfl
  | some q =>
    dsimp only
    split
    · next hq => rw [List.isEmpty_iff.1 hq]; rfl
    · rfl

/-- C48, with the URL Standard's application/x-www-form-urlencoded parser. -/
theorem C48_params_standard (env : Env) (o : URLObj) (h : Reached env o) :
    o.params = Spec.urlencodedParse (Spec.utf8 (o.url.query.getD [])) := by
  have ho := h.objOK (hostSpec_true _)
  rw [ho.params]
  unfold spOfQuery
  rw [parseQsl_eq, utf8Encode_eq]
  cases hq : o.url.query with
  | none => simp [Spec.IsStr]
  | some q =>
    intro c hc
    have := ho.url.queryOK q hq c hc
    have h1 := this.1.2
    omega

/-- C48, the other direction: after an operation on `search_params` that leaves pairs, `search` is "?"
and the serialized pairs; if it leaves none, `search` is empty. -/
theorem C48_search_of_params (env : Env) (o : URLObj) (op : Op)
    (hop : match op with | .spAppend .. | .spDelete .. | .spSet .. | .spSort => True | _ => False) :
    (applyOp env o op).2.search =
      if (applyOp env o op).2.params = [] then [] else u!"?" ++ urlencode (applyOp env o op).2.params := by
  have key : ∀ l, (⟨spUpdate l o.url, l⟩ : URLObj).search = if l = [] then [] else u!"?" ++ urlencode l := by
    intro l
    unfold URLObj.search spUpdate spToStr
    dsimp only
    by_cases hl : l = []
    · rw [if_pos hl, if_pos (by simp [(urlencode_nil_iff l).2 hl])]
      rw [rstrip_query]
    · have hq : urlencode l ≠ [] := fun h => hl ((urlencode_nil_iff l).1 h)
      rw [if_neg hl, if_neg (by simpa using hq)]
      dsimp only
      rw [if_neg (by simpa using hq)]
      rfl
  cases op with
  | spAppend n v => exact key _
  | spDelete n v => exact key _
  | spSet n v => exact key _
  | spSort => exact key _
  | _ => exact hop.elim

example : (applyOps exEnv exStart exHistory).params = [(u!"x", u!"1"), (u!"é", u!"&")] := by decide +kernel
example : (applyOps exEnv exStart exHistory).search = u!"?x=1&%C3%A9=%26" := by decide +kernel
example : spOfStr (applyOps exEnv exStart exHistory).search = [(u!"x", u!"1"), (u!"é", u!"&")] := by
  rw [← C48_params_of_search _ _ (reached_ops exStart_reached exHistory_str)]; decide +kernel

end Urlstd.Props
