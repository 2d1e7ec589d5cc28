/-
Relative references: what the parser does with an input that has no scheme.
-/
import Verif.Lemmas.SchemeStart
import Verif.Lemmas.Percent

set_option linter.unusedSimpArgs false
set_option linter.unusedVariables false

namespace Urlstd

open Spec (IsStr SchemeText Letter slashes fragmentEncode queryEncode)

/-! ### Percent-encoding in terms of the standard's sets -/

theorem utf8PercentEncode_spec {s : Str} (hs : IsStr s) {safe keep : Nat → Bool}
    (h : ∀ b < 256, quoteSafe safe b = keep b) : utf8PercentEncode s safe = Spec.percentEncode keep false (Spec.utf8 s) := by
  rw [utf8PercentEncode_false, ← utf8Encode_eq s hs]
  unfold Spec.percentEncode
  apply flatMap_congr_mem
  intro b hb
  have hb := utf8Encode_bytes s hs b hb
  unfold quoter
  rw [h b hb, pctByte_eq hb]
  simp

theorem fragmentEncode_eq {s : Str} (hs : IsStr s) : utf8PercentEncode s safeFragment = fragmentEncode s :=
  utf8PercentEncode_spec hs (by decide +kernel)

theorem queryEncode_eq {s : Str} (hs : IsStr s) (sp : Bool) :
    utf8PercentEncode s (if sp then safeSpecialQuery else safeQuery) = queryEncode sp s := by
  cases sp
  · exact utf8PercentEncode_spec hs (by decide +kernel)
  · exact utf8PercentEncode_spec hs (by decide +kernel)

theorem isC0OrSpace_iff {c : Nat} : isC0OrSpace c = true ↔ Spec.C0OrSpace c := by
  simp only [isC0OrSpace, Spec.C0OrSpace, decide_eq_true_eq]
  omega

theorem isTabNewline_iff {c : Nat} : isTabNewline c = true ↔ Spec.TabOrNewline c := by
  simp [isTabNewline, Spec.TabOrNewline, or_assoc]

theorem removeTabNewline_spec (s : Str) : removeTabNewline s = s.filter fun c => ¬ Spec.TabOrNewline c := by
  unfold removeTabNewline
  congr 1
  funext c
  rw [Bool.eq_iff_iff]
  simp [← isTabNewline_iff]

/-! ### The last states -/

section
variable {env : Env} {e : Encoding} {base : Option Rec}

theorem utf8PercentEncode_nil (safe : Nat → Bool) : utf8PercentEncode [] safe = [] := rfl

theorem eval_fragment_any {ov : Option PState} {url : Rec} {g : Str} (hg : url.fragment = some g) (f : Str) :
    eval env e base ov .fragment f url =
      (.ok (), { url with fragment := some (g ++ utf8PercentEncode f safeFragment) }) := by
  rw [eval_step _ _ _ _ (by decide)]
  show (sFragment f url).andThen env e base ov = _
  unfold sFragment
  cases f with
  | nil =>
    rw [if_pos (by rfl), utf8PercentEncode_nil, List.append_nil, ← hg]
    exact eval_eof ..
  | cons c cs =>
    rw [if_neg (by simp), hg]
    exact eval_eof ..

theorem encodeQuery_nil (e : Encoding) (url : Rec) : encodeQuery e url [] = [] := by
  unfold encodeQuery
  generalize (if (!url.isSpecial || url.scheme == u!"ws" || url.scheme == u!"wss") = true then Encoding.utf8 else e) = e'
  cases e' <;> rfl

/-- the query and fragment of an input that starts behind "?" -/
theorem eval_query_any {url : Rec} {q : Str} (hq : url.query = some q) (hf : url.fragment = none) (r : Str) :
    eval env e base none .query r url =
      (.ok (), { url with
        query := some (q ++ encodeQuery e url (r.takeWhile notHash))
        fragment := match r.dropWhile notHash with
          | [] => none
          | _ :: f => some (utf8PercentEncode f safeFragment) }) := by
  rw [eval_step _ _ _ _ (by decide)]
  show (sQuery e none r url).andThen env e base none = _
  unfold sQuery
  have e1 : queryText (none : Option PState).isSome r = r.takeWhile notHash := rfl
  have e2 : queryRest (none : Option PState).isSome r = r.dropWhile notHash := rfl
  dsimp only
  rw [e1, e2]
  cases ht : r.dropWhile notHash with
  | nil =>
    cases hb : r.takeWhile notHash with
    | nil =>
      rw [if_pos (by rfl), encodeQuery_nil, List.append_nil]
      show eval env e base none .fragment [] url = _
      rw [eval_step _ _ _ _ (by decide)]
      show eval env e base none .eof [] url = _
      rw [eval_eof]
      dsimp only
      rw [← hq, ← hf]
    | cons c cs =>
      rw [if_neg (by simp), hq]
      show eval env e base none .fragment [] { url with query := some (q ++ encodeQuery e url (c :: cs)) } = _
      rw [eval_step _ _ _ _ (by decide)]
      show eval env e base none .eof [] _ = _
      rw [eval_eof]
      dsimp only
      rw [← hf]
  | cons c cs =>
    rw [if_neg (by simp), hq]
    show eval env e base none .fragment cs
      { url with query := some (q ++ encodeQuery e url (r.takeWhile notHash)), fragment := some [] } = _
    rw [eval_fragment_any rfl]
    rfl

theorem Spec.SameAuthority.refl (u : Rec) : Spec.SameAuthority u u := ⟨rfl, rfl, rfl, rfl, rfl⟩

theorem afterPath_same {st : PState} {url : Rec} (hst : eval env e base none st [] url = (.ok (), url))
    (hfr : url.fragment = none) (r : Str) :
    ∃ u, (afterPath st r url).andThen env e base none = (.ok (), u) ∧ Spec.SameAuthority u url := by
  unfold afterPath
  cases r with
  | nil => exact ⟨url, hst, .refl _⟩
  | cons c cs =>
    dsimp only
    split
    · refine ⟨_, eval_query_any (url := { url with query := some [] }) rfl hfr cs, ?_⟩
      exact ⟨rfl, rfl, rfl, rfl, rfl⟩
    · refine ⟨_, eval_fragment_any (url := { url with fragment := some [] }) rfl cs, ?_⟩
      exact ⟨rfl, rfl, rfl, rfl, rfl⟩

theorem eval_path_same {url : Rec} {p : List Str} (hp : url.path = .list p) (hfr : url.fragment = none) (r : Str) :
    ∃ u, eval env e base none .path r url = (.ok (), u) ∧ Spec.SameAuthority u url := by
  rw [eval_step _ _ _ _ (by decide)]
  show ∃ u, (sPath none r url).andThen env e base none = (.ok (), u) ∧ Spec.SameAuthority u url
  unfold sPath
  rw [hp]
  dsimp only
  obtain ⟨u, h1, h2⟩ := afterPath_same (env := env) (e := e) (base := base) (st := .opaquePath)
    (url := { url with path := .list (addPieces url.scheme p (pathPieces url.isSpecial (pathText (none : Option PState).isSome r))) })
    (eval_opaquePath_nil _) hfr (pathRest (none : Option PState).isSome r)
  exact ⟨u, h1, h2⟩

/-! ### Inputs without a scheme -/

theorem takeScheme_none {r : Str} (h : ¬ Spec.HasScheme r) : takeScheme r = none := by
  unfold takeScheme
  cases r with
  | nil => rfl
  | cons c cs =>
    dsimp only
    split
    · rfl
    · next ha =>
      have ha : Letter c := isAlpha_iff.1 (by simpa using ha)
      cases hd : cs.dropWhile isSchemeChar with
      | nil => rfl
      | cons d t =>
        dsimp only
        split
        · next hc =>
          subst hc
          exfalso
          apply h
          refine ⟨c :: cs.takeWhile isSchemeChar, t, ⟨c, _, rfl, ha, ?_⟩, ?_⟩
          · intro x hx
            have := takeWhile_mem hx
            simp only [isSchemeChar, isAlnum, isAlpha, isDigit, Letter, Spec.Digit] at *
            simp at this
            omega
          · rw [List.append_assoc]
            show c :: cs = c :: (cs.takeWhile isSchemeChar ++ 58 :: t)
            rw [← hd, List.takeWhile_append_dropWhile]
        · rfl

theorem takeScheme_head {c : Nat} (cs : Str) (h : ¬ Letter c) : takeScheme (c :: cs) = none := by
  refine takeScheme_none ?_
  rintro ⟨sc, rest, ⟨d, ds, rfl, hd, -⟩, heq⟩
  rw [List.cons_append, List.cons_append] at heq
  injection heq with h1 h2
  exact h (h1 ▸ hd)

theorem parse_noScheme {s : Str} (h : takeScheme (prepared s none) = none) :
    (basicParse env s base e).toExcept =
      Fin.toExcept (eval env e base none .noScheme (prepared s none) {}) := by
  rw [basicParse_toExcept, eval_step _ _ _ _ (by decide)]
  show Fin.toExcept ((sScheme base none (prepared s none) {}).andThen env e base none) = _
  unfold sScheme
  rw [h]
  rfl

theorem eval_noScheme_relative {b : Rec} {p : List Str} (hp : b.path = .list p) (hnf : b.scheme ≠ u!"file") (r : Str) :
    eval env e (some b) none .noScheme r {} = (sRelative (some b) r {}).andThen env e (some b) none := by
  rw [eval_step _ _ _ _ (by decide)]
  show (sNoScheme (some b) r {}).andThen env e (some b) none = _
  unfold sNoScheme
  have ho : b.hasOpaquePath = false := by unfold Rec.hasOpaquePath; rw [hp]
  dsimp only
  rw [ho, if_neg (by simp), if_neg (by simp), if_pos hnf]
  show eval env e (some b) none .relative r {} = _
  rw [eval_step _ _ _ _ (by decide)]
  rfl

theorem eval_noScheme_file {b : Rec} {p : List Str} (hp : b.path = .list p) (hf : b.scheme = u!"file") (r : Str) :
    eval env e (some b) none .noScheme r {} = (sFile (some b) r {}).andThen env e (some b) none := by
  rw [eval_step _ _ _ _ (by decide)]
  show (sNoScheme (some b) r {}).andThen env e (some b) none = _
  unfold sNoScheme
  have ho : b.hasOpaquePath = false := by unfold Rec.hasOpaquePath; rw [hp]
  dsimp only
  rw [ho, if_neg (by simp), if_neg (by simp), if_neg (by simpa using hf)]
  show eval env e (some b) none .file r {} = _
  rw [eval_step _ _ _ _ (by decide)]
  rfl

/-! ### The empty reference -/

theorem prepared_nil : prepared [] none = [] := rfl

theorem parse_empty {b : Rec} {p : List Str} (hp : b.path = .list p) (hnf : b.scheme ≠ u!"file") :
    (basicParse env [] (some b) e).toExcept = .ok { b with fragment := none } := by
  rw [parse_noScheme rfl, prepared_nil, eval_noScheme_relative hp hnf]
  unfold sRelative
  dsimp only
  rw [if_neg hnf]
  show Fin.toExcept (eval env e (some b) none .eof [] (copyBase b {})) = _
  rw [eval_eof]
  rfl

theorem addSegment_nil (sc : Str) (p : List Str) : addSegment sc p [] false = p ++ [[]] := by
  unfold addSegment
  have h1 : isDoubleDot (utf8PercentEncode [] safePath) = false := by decide
  have h2 : isSingleDot (utf8PercentEncode [] safePath) = false := by decide
  dsimp only
  rw [h1, h2]
  simp only [Bool.false_eq_true, if_false]
  rw [utf8PercentEncode_nil]
  split
  · next h => simp [isWindowsDriveLetter] at h
  · rfl

theorem parse_empty_file {b : Rec} {p : List Str} (hp : b.path = .list p) (hf : b.scheme = u!"file")
    (hc : b.username = [] ∧ b.password = [] ∧ b.port = none) :
    (basicParse env [] (some b) e).toExcept = .ok { b with path := .list (p ++ [[]]), fragment := none } := by
  rw [parse_noScheme rfl, prepared_nil, eval_noScheme_file hp hf]
  unfold sFile sFilePath
  dsimp only
  rw [if_pos hf]
  show Fin.toExcept (eval env e (some b) none .path [] _) = _
  rw [eval_step _ _ _ _ (by decide)]
  show Fin.toExcept ((sPath none [] _).andThen env e (some b) none) = _
  unfold sPath
  dsimp only
  rw [hp]
  dsimp only [pathRest, pathText, Option.isSome]
  rw [if_neg (by simp), if_neg (by simp)]
  simp only [List.takeWhile_nil, List.dropWhile_nil]
  have : ∀ sp, pathPieces sp [] = [[]] := fun _ => rfl
  rw [this]
  show Fin.toExcept (eval env e (some b) none .opaquePath [] _) = _
  rw [eval_opaquePath_nil]
  obtain ⟨h1, h2, h3⟩ := hc
  show Except.ok _ = _
  rw [← hf]
  simp only [addPieces, addSegment_nil]
  rw [h1, h2, h3]

/-! ### Fragment and query references -/

theorem parse_fragment {b : Rec} {P : Rec → Prop} {f : Str} {s : Str}
    (hs : prepared s none = 35 :: f)
    (hop : ∀ t, b.path = .opaque t → b.host = none ∧ b.username = [] ∧ b.password = [] ∧ b.port = none)
    (hfile : b.scheme = u!"file" → b.username = [] ∧ b.password = [] ∧ b.port = none) :
    (basicParse env s (some b) e).toExcept = .ok { b with fragment := some (utf8PercentEncode f safeFragment) } := by
  rw [parse_noScheme (by rw [hs]; exact takeScheme_head _ (by decide)), hs]
  cases hp : b.path with
  | «opaque» t =>
    obtain ⟨h1, h2, h3, h4⟩ := hop t hp
    rw [eval_step _ _ _ _ (by decide)]
    show Fin.toExcept ((sNoScheme (some b) (35 :: f) {}).andThen env e (some b) none) = _
    unfold sNoScheme
    have ho : b.hasOpaquePath = true := by unfold Rec.hasOpaquePath; rw [hp]
    dsimp only
    rw [ho, if_neg (by simp), if_pos rfl]
    show Fin.toExcept (eval env e (some b) none .fragment f _) = _
    rw [eval_fragment_any rfl]
    rw [h1, h2, h3, h4, ← hp]; rfl
  | list p =>
    by_cases hf : b.scheme = u!"file"
    · obtain ⟨h2, h3, h4⟩ := hfile hf
      rw [eval_noScheme_file hp hf]
      unfold sFile sFilePath
      dsimp only
      rw [if_neg (by decide), if_pos hf, if_neg (by decide), if_pos rfl]
      show Fin.toExcept (eval env e (some b) none .fragment f _) = _
      rw [eval_fragment_any rfl]
      rw [h2, h3, h4, ← hp, ← hf]; rfl
    · rw [eval_noScheme_relative hp hf]
      unfold sRelative
      dsimp only
      rw [if_neg hf, if_neg (by simp), if_neg (by decide), if_pos rfl]
      show Fin.toExcept (eval env e (some b) none .fragment f _) = _
      rw [eval_fragment_any rfl, ← hp]; rfl

theorem parse_query {b : Rec} {q : Str} {s : Str} {p : List Str} (hs : prepared s none = 63 :: q)
    (hq : 35 ∉ q) (hp : b.path = .list p)
    (hfile : b.scheme = u!"file" → b.username = [] ∧ b.password = [] ∧ b.port = none) :
    (basicParse env s (some b) e).toExcept = .ok { b with query := some (encodeQuery e b q), fragment := none } := by
  rw [parse_noScheme (by rw [hs]; exact takeScheme_head _ (by decide)), hs]
  have hn : ∀ c ∈ q, notHash c = true := by
    intro c hc
    simp only [notHash, Bool.not_eq_true', decide_eq_false_iff_not]
    rintro rfl; exact hq hc
  have h1 : q.takeWhile notHash = q := takeWhile_all hn
  have h2 : q.dropWhile notHash = [] := dropWhile_all hn
  by_cases hf : b.scheme = u!"file"
  · obtain ⟨h3, h4, h5⟩ := hfile hf
    rw [eval_noScheme_file hp hf]
    unfold sFile sFilePath
    dsimp only
    rw [if_neg (by decide), if_pos hf, if_pos rfl]
    show Fin.toExcept (eval env e (some b) none .query q _) = _
    rw [eval_query_any rfl rfl, h1, h2]
    rw [h3, h4, h5, ← hf]; rfl
  · rw [eval_noScheme_relative hp hf]
    unfold sRelative
    dsimp only
    rw [if_neg hf, if_neg (by simp), if_pos rfl]
    show Fin.toExcept (eval env e (some b) none .query q _) = _
    rw [eval_query_any rfl rfl, h1, h2]; rfl

/-! ### Path references -/

theorem shortenRec_list {u : Rec} {p : List Str} (hp : u.path = .list p) :
    shortenRec u = some { u with path := .list (shortenPath u.scheme p) } := by
  unfold shortenRec; rw [hp]

theorem parse_path {b : Rec} {r s : Str} {p : List Str} (hs : prepared s none = r) (hns : ¬ Spec.HasScheme r)
    (hp : b.path = .list p) (hnf : b.scheme ≠ u!"file")
    (h1 : ∀ t, r = 47 :: t → ∀ c, t.head? = some c → c ≠ 47 ∧ (b.isSpecial = true → c ≠ 92))
    (h2 : b.isSpecial = true → ∀ t, r ≠ 92 :: t) :
    ∃ u, (basicParse env s (some b) e).toExcept = .ok u ∧ Spec.SameAuthority u b := by
  rw [parse_noScheme (by rw [hs]; exact takeScheme_none hns), hs, eval_noScheme_relative hp hnf]
  unfold sRelative
  dsimp only
  rw [if_neg hnf]
  cases r with
  | nil =>
    refine ⟨copyBase b {}, ?_, ⟨rfl, rfl, rfl, rfl, rfl⟩⟩
    show Fin.toExcept (eval env e (some b) none .eof [] _) = _
    rw [eval_eof]; rfl
  | cons c cs =>
    dsimp only
    have key : ∀ (v : Rec) (q : List Str), v.path = .list q → v.fragment = none → Spec.SameAuthority v b → ∀ t,
        ∃ u, Fin.toExcept (eval env e (some b) none .path t v) = .ok u ∧ Spec.SameAuthority u b := by
      intro v q hq hfr hsame t
      obtain ⟨u, hu, hsa⟩ := eval_path_same (env := env) (e := e) (base := some b) hq hfr t
      refine ⟨u, by rw [hu]; rfl, ?_⟩
      exact ⟨hsa.1.trans hsame.1, hsa.2.1.trans hsame.2.1, hsa.2.2.1.trans hsame.2.2.1,
        hsa.2.2.2.1.trans hsame.2.2.2.1, hsa.2.2.2.2.trans hsame.2.2.2.2⟩
    by_cases hc : c = 47
    · subst hc
      rw [if_pos (by simp)]
      show ∃ u, Fin.toExcept (eval env e (some b) none .relativeSlash cs { scheme := b.scheme }) = .ok u ∧ _
      rw [eval_step _ _ _ _ (by decide)]
      show ∃ u, Fin.toExcept ((sRelativeSlash (some b) cs { scheme := b.scheme }).andThen env e (some b) none) = .ok u ∧ _
      have hc := h1 cs rfl
      unfold sRelativeSlash
      dsimp only
      have hsp : ({ scheme := b.scheme } : Rec).isSpecial = b.isSpecial := rfl
      rw [if_neg, if_neg]
      · refine key _ [] ?_ ?_ ?_ cs
        · rfl
        · rfl
        · exact ⟨rfl, rfl, rfl, rfl, rfl⟩
      · intro h; exact (hc 47 h).1 rfl
      · intro h
        rw [hsp] at h
        simp only [Bool.and_eq_true, Bool.or_eq_true, decide_eq_true_eq] at h
        rcases h.2 with h' | h'
        · exact (hc 92 h').2 h.1 rfl
        · exact (hc 47 h').1 rfl
    · rw [if_neg]
      · split
        · show ∃ u, Fin.toExcept (eval env e (some b) none .query cs _) = .ok u ∧ Spec.SameAuthority u b
          rw [eval_query_any rfl rfl]
          refine ⟨_, rfl, ?_⟩
          exact ⟨rfl, rfl, rfl, rfl, rfl⟩
        · split
          · show ∃ u, Fin.toExcept (eval env e (some b) none .fragment cs _) = .ok u ∧ Spec.SameAuthority u b
            rw [eval_fragment_any rfl]
            refine ⟨_, rfl, ?_⟩
            exact ⟨rfl, rfl, rfl, rfl, rfl⟩
          · rw [shortenRec_list (u := { copyBase b {} with query := none }) hp]
            refine key _ (shortenPath b.scheme p) ?_ ?_ ?_ _
            · rfl
            · rfl
            · exact ⟨rfl, rfl, rfl, rfl, rfl⟩
      · intro h
        simp only [Bool.or_eq_true, Bool.and_eq_true, decide_eq_true_eq] at h
        rcases h with h | h
        · exact hc h
        · exact h2 h.1 cs (by rw [h.2])

end

end Urlstd
