/-
Properties C36-C38, C40, C41: relative references and encodings.
-/
import Verif.Lemmas.Encoding
import Verif.Props.Parsed

namespace Urlstd.Props

open Spec (IsStr TabOrNewline C0OrSpace fragmentEncode queryEncode HasScheme SameAuthority Special)

/-! ### C36 -/

/-- a "file" URL used as a base -/
def exFile : Rec := { scheme := u!"file", host := some (.str []), path := .list [u!"a", u!"b"], query := some u!"q" }

theorem exFile_parsed : Parsed exEnv exFile :=
  .alone (s := u!"file:///a/b?q") (e := .utf8) (by decide) trivial (by decide +kernel)

/-- C36 is false for "file" URLs: the empty reference against `file:///a/b?q` is `file:///a/b/?q`. -/
theorem C36_false_file :
    (parseUrl exEnv [] (.record exFile)).res =
      .ok { exFile with path := .list [u!"a", u!"b", []] } := by decide +kernel

/-- C36 (partial: bases with a scheme other than "file"). The empty string against a base whose path is
not opaque is the base without its fragment. -/
theorem C36_empty_reference_partial (env : Env) (b : Rec) (e : Encoding) (hp : ∀ t, b.path ≠ .opaque t)
    (hnf : b.scheme ≠ u!"file") : (parseUrl env [] (.record b) e).res = .ok { b with fragment := none } := by
  cases h : b.path with
  | «opaque» t => exact absurd h (hp t)
  | list p => rw [← h]; exact parse_empty h hnf

/-- C36, what happens with a "file" base: an empty segment is appended to the path. -/
theorem C36_empty_reference_file (env : Env) (b : Rec) (hb : Parsed env b) (e : Encoding) (hf : b.scheme = u!"file") :
    ∃ segs, b.path = .list segs ∧
      (parseUrl env [] (.record b) e).res = .ok { b with path := .list (segs ++ [[]]), fragment := none } := by
  have hw := hb.wf (hostSpec_true env)
  obtain ⟨-, segs, hs, -⟩ := hw.specialHasHost ⟨none, by rw [hf]; decide⟩
  exact ⟨segs, hs, parse_empty_file hs hf (hw.auth.bare (.inr (.inr hf)))⟩

example : (parseUrl exEnv [] (.record exRecord)).res = .ok { exRecord with fragment := none } :=
  C36_empty_reference_partial _ _ _ (by intro t h; cases h) (by decide)

/-! ### C37 -/

/-- C37. "#f" against any base is the base with the percent-encoded f as fragment. `f` is followed by
the spaces and controls that are removed from the end of every input; tabs and newlines in `f` are
removed. -/
theorem C37_fragment_reference (env : Env) (b : Rec) (hb : Parsed env b) (e : Encoding) (f post : Str) (hs : IsStr f)
    (hpost : ∀ c ∈ post, C0OrSpace c) (hlast : ∀ c, f.getLast? = some c → ¬ C0OrSpace c) :
    (parseUrl env (u!"#" ++ f ++ post) (.record b) e).res =
      .ok { b with fragment := some (fragmentEncode (f.filter fun c => ¬ TabOrNewline c)) } := by
  have hw := hb.wf (hostSpec_true env)
  rw [parseUrl_record, ← fragmentEncode_eq (fun c hc => hs c (List.mem_filter.1 hc).1)]
  refine parse_fragment (P := fun _ => True) ?_ ?_ ?_
  · rw [List.append_assoc, prepared_append (by decide) (by decide)]
    unfold prepEnd
    rw [stripRight_append_all (fun c hc => isC0OrSpace_iff.2 (hpost c hc)), stripRight_id, removeTabNewline_spec]
    · rfl
    · intro c hc
      have := hlast c hc
      cases h : isC0OrSpace c with
      | false => rfl
      | true => exact absurd (isC0OrSpace_iff.1 h) this
  · intro t ht
    exact hw.opaqueIsBare t ht
  · intro hf
    exact hw.auth.bare (.inr (.inr hf))

example : (parseUrl exEnv (u!"#" ++ u!"é x" ++ u!" ") (.record exRecord)).res =
    .ok { exRecord with fragment := some u!"%C3%A9%20x" } := by
  rw [C37_fragment_reference exEnv exRecord exRecord_parsed .utf8 u!"é x" u!" " (by decide) (by decide) (by decide)]
  decide +kernel

/-! ### C38 -/

/-- C38. "?q" against a base whose path is not opaque is the base with the percent-encoded q as query
and without fragment. -/
theorem C38_query_reference (env : Env) (b : Rec) (hb : Parsed env b) (hp : ∀ t, b.path ≠ .opaque t) (q post : Str)
    (hs : IsStr q) (hq : c!"#" ∉ q) (hpost : ∀ c ∈ post, C0OrSpace c)
    (hlast : ∀ c, q.getLast? = some c → ¬ C0OrSpace c) (special : Bool) (hsp : special = true ↔ Special b.scheme) :
    (parseUrl env (u!"?" ++ q ++ post) (.record b)).res =
      .ok { b with query := some (queryEncode special (q.filter fun c => ¬ TabOrNewline c)), fragment := none } := by
  have hw := hb.wf (hostSpec_true env)
  have hsp' : b.isSpecial = special := by
    cases special with
    | true => exact (special_iff _).2 (hsp.1 rfl)
    | false =>
      cases h : b.isSpecial with
      | false => rfl
      | true => exact absurd (hsp.2 ((special_iff _).1 h)) (by simp)
  obtain ⟨p, hp⟩ : ∃ p, b.path = .list p := by
    cases h : b.path with
    | «opaque» t => exact absurd h (hp t)
    | list p => exact ⟨p, rfl⟩
  have henc : encodeQuery .utf8 b (q.filter fun c => ¬ TabOrNewline c) =
      queryEncode special (q.filter fun c => ¬ TabOrNewline c) := by
    rw [← queryEncode_eq (fun c hc => hs c (List.mem_filter.1 hc).1), ← hsp']
    unfold encodeQuery
    simp only [ite_self]
    rfl
  rw [parseUrl_record, ← henc]
  refine parse_query ?_ ?_ hp ?_
  · rw [List.append_assoc, prepared_append (by decide) (by decide)]
    unfold prepEnd
    rw [stripRight_append_all (fun c hc => isC0OrSpace_iff.2 (hpost c hc)), stripRight_id, removeTabNewline_spec]
    · rfl
    · intro c hc
      have := hlast c hc
      cases h : isC0OrSpace c with
      | false => rfl
      | true => exact absurd (isC0OrSpace_iff.1 h) this
  · intro h
    exact hq (List.mem_filter.1 h).1
  · intro hf
    exact hw.auth.bare (.inr (.inr hf))

example : (parseUrl exEnv (u!"?" ++ u!"a'\té?" ++ u!"") (.record exFile)).res =
    .ok { exFile with query := some u!"a%27%C3%A9?", fragment := none } := by
  rw [C38_query_reference exEnv exFile exFile_parsed (by intro t h; cases h) u!"a'\té?" [] (by decide) (by decide)
    (by decide) (by decide) true ⟨fun _ => ⟨none, by decide⟩, fun _ => rfl⟩]
  decide +kernel

/-! ### C40 -/

/-- C40. A reference without tabs and newlines that does not start with a scheme, with a C0 control or
space, or with two slashes (or backslashes, for a special base), resolves to a URL with the base's
scheme, credentials, host and port. -/
theorem C40_path_reference_keeps_authority (env : Env) (b : Rec) (r : Str) (e : Encoding)
    (hp : ∀ t, b.path ≠ .opaque t) (hnf : b.scheme ≠ u!"file") (hns : ¬ HasScheme r)
    (htab : ∀ c ∈ r, ¬ TabOrNewline c) (hhead : ∀ c, r.head? = some c → ¬ C0OrSpace c)
    (h1 : ∀ t, r ≠ u!"//" ++ t) (h2 : Special b.scheme → ∀ t, r ≠ u!"/\\" ++ t) (h3 : Special b.scheme → ∀ t, r ≠ u!"\\" ++ t) :
    ∃ u, (parseUrl env r (.record b) e).res = .ok u ∧ SameAuthority u b := by
  obtain ⟨p, hp⟩ : ∃ p, b.path = .list p := by
    cases h : b.path with
    | «opaque» t => exact absurd h (hp t)
    | list p => exact ⟨p, rfl⟩
  -- the prepared reference is a prefix of the reference
  obtain ⟨post, hr, hpost, hlast⟩ := stripRight_split isC0OrSpace r
  have hprep : prepared r none = stripRight isC0OrSpace r := by
    show removeTabNewline (stripBoth isC0OrSpace r) = _
    rw [stripBoth_eq, dropWhile_none, removeTabNewline_id]
    · intro c hc
      have hm : c ∈ r := by rw [hr]; exact List.mem_append_left _ hc
      cases h : isTabNewline c with
      | false => rfl
      | true => exact absurd (isTabNewline_iff.1 h) (htab c hm)
    · intro c hc
      cases h : isC0OrSpace c with
      | false => rfl
      | true => exact absurd (isC0OrSpace_iff.1 h) (hhead c hc)
  generalize stripRight isC0OrSpace r = s at *
  rw [parseUrl_record]
  refine parse_path hprep ?_ hp hnf ?_ ?_
  · rintro ⟨sc, rest, hsc, hs⟩
    exact hns ⟨sc, rest ++ post, hsc, by rw [hr, hs, List.append_assoc]⟩
  · intro t ht c hc
    cases t with
    | nil => cases hc
    | cons d ds =>
      simp at hc; subst hc
      constructor
      · rintro rfl
        exact h1 (ds ++ post) (by rw [hr, ht]; rfl)
      · rintro hsp rfl
        exact h2 ((special_iff _).1 hsp) (ds ++ post) (by rw [hr, ht]; rfl)
  · intro hsp t ht
    exact h3 ((special_iff _).1 hsp) (t ++ post) (by rw [hr, ht]; rfl)

/-- all base URLs with `..` segments that lead above the root -/
example : ∃ u, (parseUrl exEnv u!"/../../a/../..//b" (.record exRecord)).res = .ok u ∧ SameAuthority u exRecord := by
  refine C40_path_reference_keeps_authority _ _ _ _ (by intro t h; cases h) (by decide) ?_ (by decide) (by decide)
    (by intro t h; cases h) (by intro _ t h; cases h) (by intro _ t h; cases h)
  rintro ⟨sc, rest, ⟨c, cs, rfl, hc, -⟩, h⟩
  injection h with h _
  subst h
  exact absurd hc (by decide)
/-- a tab between two slashes is removed first, so that the second condition is needed -/
example : ∃ u, (parseUrl exEnv u!"/\t/other/" (.record exRecord)).res = .ok u ∧ u.host = some (.str u!"other") :=
  ⟨{ scheme := u!"http", host := some (.str u!"other"), path := .list [[]] }, by decide +kernel, rfl⟩

/-! ### C41 -/

/-- C41. Parsing with another encoding fails with the same exception, or gives a URL that differs in
the query only, and does not differ at all if it is not special or has the scheme "ws" or "wss". -/
theorem C41_encoding_affects_query_only (env : Env) (s : Str) (base : BaseArg) (e : Encoding) :
    (∀ err, (parseUrl env s base).res = .error err → (parseUrl env s base e).res = .error err) ∧
    (∀ u, (parseUrl env s base).res = .ok u →
      ∃ q, (parseUrl env s base e).res = .ok { u with query := q } ∧ (q = none ↔ u.query = none) ∧
        (¬ Special u.scheme ∨ u.scheme = u!"ws" ∨ u.scheme = u!"wss" → q = u.query)) := by
  have h := parseUrl_encoding env s base .utf8 e
  constructor
  · intro err herr
    rw [herr] at h
    cases h2 : (parseUrl env s base e).res with
    | error x => rw [h2] at h; exact congrArg _ (Eq.symm h)
    | ok v => rw [h2] at h; exact h.elim
  · intro u hu
    rw [hu] at h
    cases h2 : (parseUrl env s base e).res with
    | error x => rw [h2] at h; exact h.elim
    | ok v =>
      rw [h2] at h
      obtain ⟨q, rfl, h3, h4⟩ := QEq.ex h
      refine ⟨q, rfl, ?_, ?_⟩
      · cases q <;> cases hq : u.query <;> simp_all
      · intro hs
        refine (h4 ?_).symm
        unfold encScheme
        rcases hs with hs | hs | hs
        · cases hsp : isSpecialScheme u.scheme with
          | false => rfl
          | true => exact absurd ((special_iff _).1 hsp) hs
        · rw [hs]; decide
        · rw [hs]; decide

/-- C41. The query is printable ASCII with any encoding. -/
theorem C41_query_printable (env : Env) (s : Str) (hs : IsStr s) (base : BaseArg) (hb : BaseOK env base) (e : Encoding)
    (he : EncOK e) (u : Rec) (h : (parseUrl env s base e).res = .ok u) (q : Str) (hq : u.query = some q) :
    ∀ c ∈ q, Spec.Printable c := by
  have := ((parseUrl_parsed hs hb he h).wf (hostSpec_true env)).queryOK q hq
  exact fun c hc => (this c hc).1

/-- a legacy encoding: windows-1252 for é -/
def exLatin : Encoding := .other fun c => if c < 128 then some [c] else if c = 0xE9 then some [0xE9] else none

example : EncOK exLatin := by
  intro c bs h b hb
  simp only at h
  split at h
  · cases h; simp at hb; omega
  · split at h
    · cases h; simp at hb; omega
    · cases h
example : (parseUrl exEnv u!"http://h/é?é€" .none exLatin).res =
    .ok { scheme := u!"http", host := some (.str u!"h"), path := .list [u!"%C3%A9"], query := some u!"%E9%26%238364%3B" } := by
  decide +kernel
example : (parseUrl exEnv u!"ws://h/é?é€" .none exLatin).res = (parseUrl exEnv u!"ws://h/é?é€").res := by
  decide +kernel

end Urlstd.Props
