/-
Properties C21-C28: what holds of every parsed URL. `Parsed env u` says that `u` was returned by
`parse_url`, for any input, base and encoding.
-/
import Verif.Lemmas.LongPort

namespace Urlstd.Props

open Spec (IsStr)

/-! ### A concrete case, used to show that the hypotheses can be met -/

/-- "../c d?é'#x" resolved against "HTTP://u:p@EX.com:8080/a/%2e/b/c" -/
def exRecord : Rec where
  scheme := u!"http"
  username := u!"u"
  password := u!"p"
  host := some (.str u!"ex.com")
  port := some 8080
  path := .list [u!"a", u!"c%20d"]
  query := some u!"%C3%A9%27"
  fragment := some u!"x"

theorem exRecord_parsed : Parsed exEnv exRecord :=
  .withString (s := u!"../c d?é'#x") (b := u!" HTTP://u:p@EX.com:8080/a/%2e/b/c") (e := .utf8) (by decide) (by decide)
    trivial (by decide +kernel)

/-- "mailto:a b?c" -/
theorem exOpaque_parsed :
    Parsed exEnv { scheme := u!"mailto", path := .opaque u!"a b", query := some u!"c" } :=
  .alone (s := u!"mailto:a b?c") (e := .utf8) (by decide) trivial (by decide +kernel)

/-! ### C21 -/

/-- C21. Whatever `parse_url` raises is URLParseError (or a subclass), or the ValueError of CPython's
limit on the digits of a number, and the latter only if the input is longer than that limit (or if the
IDNA library returns such a long domain). -/
theorem C21_errors (env : Env) (s : Str) (base : BaseArg) (e : Encoding) (err : Err) (hs : IsStr s)
    (hb : BaseOK env base) (he : EncOK e) (h : (parseUrl env s base e).res = .error err) :
    err.isURLParseError = true ∨ (err = .valueError ∧ LongInput env (max s.length base.length)) :=
  parseUrl_error hs hb he h

/-- C21. In particular no AssertionError, IndexError, AttributeError, TypeError or
NotImplementedError, and the model's fuel is never exhausted. -/
theorem C21_no_internal_error (env : Env) (s : Str) (base : BaseArg) (e : Encoding) (hs : IsStr s)
    (hb : BaseOK env base) (he : EncOK e) :
    (parseUrl env s base e).res ≠ .error .assertionError ∧ (parseUrl env s base e).res ≠ .error .indexError ∧
    (parseUrl env s base e).res ≠ .error .attributeError ∧ (parseUrl env s base e).res ≠ .error .typeError ∧
    (parseUrl env s base e).res ≠ .error .notImplemented ∧ (parseUrl env s base e).res ≠ .error .outOfFuel := by
  refine ⟨fun h => ?_, fun h => ?_, fun h => ?_, fun h => ?_, fun h => ?_, fun h => ?_⟩ <;>
    rcases C21_errors env s base e _ hs hb he h with h | ⟨h, _⟩ <;> cases h

/-- C21 (partial: for an interpreter without a limit on the digits of a number). Every exception is
URLParseError or a subclass. -/
theorem C21_only_URLParseError_partial (env : Env) (hl : env.maxStrDigits = 0) (s : Str) (base : BaseArg)
    (e : Encoding) (err : Err) (hs : IsStr s) (hb : BaseOK env base) (he : EncOK e)
    (h : (parseUrl env s base e).res = .error err) : err.isURLParseError = true := by
  rcases C21_errors env s base e err hs hb he h with h | ⟨_, h, _⟩
  · exact h
  · exact absurd hl h

/-- C21 (partial: for an input not longer than the limit, and an IDNA library whose results are not
longer than half of the limit). Every exception is URLParseError or a subclass. -/
theorem C21_short_input_partial (env : Env) (s : Str) (base : BaseArg) (e : Encoding) (err : Err) (hs : IsStr s)
    (hb : BaseOK env base) (he : EncOK e) (hl1 : s.length ≤ env.maxStrDigits) (hl2 : base.length ≤ env.maxStrDigits)
    (hid : ∀ d a log, d.length ≤ 4 * max s.length base.length → domainToAscii env d false = ⟨.ok a, log⟩ →
      2 * a.length ≤ env.maxStrDigits)
    (h : (parseUrl env s base e).res = .error err) : err.isURLParseError = true := by
  rcases C21_errors env s base e err hs hb he h with h | ⟨_, _, h | ⟨d, a, log, h1, h2, h3⟩⟩
  · exact h
  · omega
  · have := hid d a log h1 h2; omega

/-- C21 is false: with any limit on the digits of a number, a port that is longer raises ValueError. -/
theorem C21_false_valueError (env : Env) (h : 0 < env.maxStrDigits) :
    ∃ s, (parseUrl env s).res = .error .valueError := ⟨_, parse_long_port env h⟩

example : (parseUrl exEnv u!"//a b/" (.str u!"http://x/")).res = .error .hostParse := by decide +kernel
example : BaseOK exEnv (.record exRecord) := exRecord_parsed
example (d a : Str) (log : Log) (hd : d.length ≤ 4 * 500) (h : domainToAscii exEnv d false = ⟨.ok a, log⟩) :
    2 * a.length ≤ exEnv.maxStrDigits := by
  unfold domainToAscii exEnv at h
  by_cases hd' : d.all (· < 128) = true
  · simp only [hd', if_true] at h
    by_cases he : (lower d).isEmpty = true
    · simp [he, maskErrors, Res.err] at h
    · simp only [he] at h
      simp [maskErrors, Res.ok] at h
      rw [← h.1]
      simp only [lower, List.length_map, exEnv]
      omega
  · simp only [hd'] at h; simp [Res.err] at h

/-! ### C22 -/

/-- C22. The scheme is a lower-case letter followed by lower-case letters, digits, "+", "-" and ".". -/
theorem C22_scheme_normalized (env : Env) (u : Rec) (h : Parsed env u) : Spec.NormScheme u.scheme :=
  (h.wf (hostSpec_true env)).auth.scheme.spec

example : Spec.NormScheme exRecord.scheme := C22_scheme_normalized _ _ exRecord_parsed

/-! ### C23 -/

/-- C23. A special URL has a host, which is empty only for the scheme "file", and a list path with at
least one segment. -/
theorem C23_special_has_host (env : Env) (u : Rec) (h : Parsed env u) : Spec.SpecialHasHost u :=
  (h.wf (hostSpec_true env)).specialHasHost

/-- C23. An opaque path occurs with a null host, without credentials and port only. -/
theorem C23_opaque_is_bare (env : Env) (u : Rec) (h : Parsed env u) : Spec.OpaqueIsBare u :=
  (h.wf (hostSpec_true env)).opaqueIsBare

example : Spec.Special exRecord.scheme := ⟨_, .tail _ (.tail _ (.head _))⟩
example : ({ scheme := u!"mailto", path := .opaque u!"a b", query := some u!"c" } : Rec).host = none :=
  (C23_opaque_is_bare _ _ exOpaque_parsed _ rfl).1

/-! ### C24 -/

/-- C24. The port is absent, or at most 65535 and not the default port of the scheme. -/
theorem C24_port (env : Env) (u : Rec) (h : Parsed env u) : Spec.PortOK u := (h.wf (hostSpec_true env)).portOK

example : exRecord.port = some 8080 := rfl
example : ∃ u, (parseUrl exEnv u!"https://x:443/").res = .ok u ∧ u.port = none := ⟨_, rfl, rfl⟩

/-! ### C25 -/

/-- C25. Without a host, with an empty host, or with the scheme "file" there are no credentials and no
port. -/
theorem C25_bare_without_host (env : Env) (u : Rec) (h : Parsed env u) : Spec.BareWithoutHost u :=
  (h.wf (hostSpec_true env)).auth.bare

example : Parsed exEnv { scheme := u!"foo", host := some (.str []), path := .list [u!"x"] } :=
  .alone (s := u!"foo:///x") (e := .utf8) (by decide) trivial (by decide +kernel)

/-! ### C26 -/

/-- C26. No segment contains "/", "?", "#", a space, a control or a non-ASCII character, nor "\" if the
URL is special; none is "." or ".." in any percent-encoded spelling. -/
theorem C26_segments (env : Env) (u : Rec) (h : Parsed env u) : Spec.SegmentsOK u :=
  (h.wf (hostSpec_true env)).segmentsOK

example : Spec.DotSegment u!"%2e%2E" := .inr (by decide)
example : ¬ Spec.DotSegment u!"c%20d" := (C26_segments _ _ exRecord_parsed _ rfl _ (.tail _ (.head _))).1

/-! ### C27 -/

/-- C27. The serialization is printable ASCII; spaces occur in opaque paths only. -/
theorem C27_href_printable (env : Env) (hi : IdnaOK env) (u : Rec) (h : Parsed env u) : Spec.HrefOK u :=
  (h.wf (hostSpec_wf hi)).hrefOK

example : Spec.HrefOK exRecord := C27_href_printable _ exEnv_idna _ exRecord_parsed

/-! ### C28 -/

/-- C28. The query contains no "#", '"', "<", ">", space, control or non-ASCII character, nor "'" if
the URL is special. -/
theorem C28_query (env : Env) (u : Rec) (h : Parsed env u) : Spec.QueryOK u := (h.wf (hostSpec_true env)).queryOK

/-- C28. The fragment contains no '"', "<", ">", "`", space, control or non-ASCII character. -/
theorem C28_fragment (env : Env) (u : Rec) (h : Parsed env u) : Spec.FragmentOK u :=
  (h.wf (hostSpec_true env)).fragmentOK

example : exRecord.query = some u!"%C3%A9%27" := rfl
-- a legacy encoding: ISO 8859-1
example : EncOK (.other fun c => if c < 256 then some [c] else none) := by
  intro c bs h b hb
  dsimp only at h
  split at h
  · cases h
    simp only [List.mem_cons, List.not_mem_nil, or_false] at hb
    omega
  · cases h

end Urlstd.Props
