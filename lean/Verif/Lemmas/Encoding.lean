/-
Parsing with two encodings: the results differ in the query only, and only for special URLs that are
not WebSocket URLs.
-/
import Verif.Lemmas.Reference

set_option linter.unusedSimpArgs false
set_option linter.unusedVariables false

namespace Urlstd

/-- schemes whose query is encoded with the given encoding -/
def encScheme (s : Str) : Bool := isSpecialScheme s && s != u!"ws" && s != u!"wss"

/-- equal except for the query, which both have or both lack, and which may differ for `encScheme`s -/
structure QEq (u v : Rec) : Prop where
  rest : { u with query := none } = { v with query := none }
  some : u.query.isSome = v.query.isSome
  same : encScheme u.scheme = false → u.query = v.query

theorem QEq.refl (u : Rec) : QEq u u := ⟨rfl, rfl, fun _ => rfl⟩

theorem QEq.ex {u v : Rec} (h : QEq u v) : ∃ q, v = { u with query := q } ∧ u.query.isSome = q.isSome ∧
    (encScheme u.scheme = false → u.query = q) := by
  refine ⟨v.query, ?_, h.some, h.same⟩
  have := congrArg (fun w : Rec => { w with query := v.query }) h.rest
  simp only at this
  exact this.symm

/-- results -/
def FEq (a b : Except Err Unit × Rec) : Prop := a.1 = b.1 ∧ QEq a.2 b.2

/-- bases -/
def BEq' : Option Rec → Option Rec → Prop
  | none, none => True
  | some b, some b' => QEq b b'
  | _, _ => False

section
variable {env : Env} {e e' : Encoding} {base base' : Option Rec}

theorem encode_fragment {u v : Rec} (h : QEq u v) (r : Str) :
    FEq (eval env e base none .fragment r u) (eval env e' base' none .fragment r v) := by
  obtain ⟨q, rfl, h1, h2⟩ := h.ex
  rw [eval_step _ _ _ _ (by decide), eval_step _ _ _ _ (by decide)]
  show FEq ((sFragment r u).andThen env e base none) ((sFragment r { u with query := q }).andThen env e' base' none)
  unfold sFragment
  split
  · show FEq (eval env e base none .eof [] _) (eval env e' base' none .eof [] _)
    rw [eval_eof, eval_eof]
    exact ⟨rfl, h⟩
  · dsimp only
    split
    · exact ⟨rfl, h⟩
    · show FEq (eval env e base none .eof [] _) (eval env e' base' none .eof [] _)
      rw [eval_eof, eval_eof]
      exact ⟨rfl, rfl, h1, h2⟩

theorem encodeQuery_same {u : Rec} (h : encScheme u.scheme = false) (e e' : Encoding) (b : Str) :
    encodeQuery e u b = encodeQuery e' u b := by
  unfold encodeQuery
  have : (!u.isSpecial || u.scheme == u!"ws" || u.scheme == u!"wss") = true := by
    unfold encScheme at h
    unfold Rec.isSpecial
    cases hs : isSpecialScheme u.scheme with
    | false => rfl
    | true =>
      rw [hs] at h
      by_cases h1 : u.scheme = u!"ws"
      · simp [h1]
      · by_cases h2 : u.scheme = u!"wss"
        · simp [h2]
        · simp [h1, h2] at h
  rw [if_pos this]
  conv => rhs; rw [if_pos this]

theorem encode_query {u v : Rec} (h : QEq u v) (r : Str) :
    FEq (eval env e base none .query r u) (eval env e' base' none .query r v) := by
  obtain ⟨q, rfl, h1, h2⟩ := h.ex
  rw [eval_step _ _ _ _ (by decide), eval_step _ _ _ _ (by decide)]
  show FEq ((sQuery e none r u).andThen env e base none) ((sQuery e' none r { u with query := q }).andThen env e' base' none)
  unfold sQuery
  have e1 : queryText (none : Option PState).isSome r = r.takeWhile notHash := rfl
  have e2 : queryRest (none : Option PState).isSome r = r.dropWhile notHash := rfl
  dsimp only
  rw [e1, e2]
  split
  · exact encode_fragment h []
  · cases hq : u.query with
    | none =>
      rw [hq] at h1
      cases q with
      | some _ => cases h1
      | none => exact ⟨rfl, h⟩
    | some x =>
      rw [hq] at h1
      cases q with
      | none => cases h1
      | some y =>
        dsimp only
        refine encode_fragment ?_ _
        have hsame : encScheme u.scheme = false →
            some (x ++ encodeQuery e u (r.takeWhile notHash)) =
              some (y ++ encodeQuery e' { u with query := some y } (r.takeWhile notHash)) := by
          intro hs
          have := h2 hs
          rw [hq] at this
          cases this
          rw [encodeQuery_same hs e e']; rfl
        split
        · exact ⟨rfl, rfl, hsame⟩
        · exact ⟨rfl, rfl, hsame⟩

theorem encode_afterPath {st : PState} (hst : ∀ u v, QEq u v → FEq (eval env e base none st [] u) (eval env e' base' none st [] v))
    {u v : Rec} (h : QEq u v) (r : Str) :
    FEq ((afterPath st r u).andThen env e base none) ((afterPath st r v).andThen env e' base' none) := by
  unfold afterPath
  cases r with
  | nil => exact hst u v h
  | cons c cs =>
    obtain ⟨q, rfl, h1, h2⟩ := h.ex
    dsimp only
    split
    · exact encode_query (by exact ⟨rfl, rfl, fun _ => rfl⟩) cs
    · exact encode_fragment (by exact ⟨rfl, h1, h2⟩) cs

theorem encode_eof {u v : Rec} (h : QEq u v) (r : Str) :
    FEq (eval env e base none .eof r u) (eval env e' base' none .eof r v) := by
  rw [eval_eof, eval_eof]; exact ⟨rfl, h⟩

theorem encode_opaquePath {u v : Rec} (h : QEq u v) (r : Str) :
    FEq (eval env e base none .opaquePath r u) (eval env e' base' none .opaquePath r v) := by
  rw [eval_step _ _ _ _ (by decide), eval_step _ _ _ _ (by decide)]
  obtain ⟨q, rfl, h1, h2⟩ := h.ex
  exact encode_afterPath (fun u v h => encode_eof h []) (by exact ⟨rfl, h1, h2⟩) _

theorem encode_path {u v : Rec} (h : QEq u v) (r : Str) :
    FEq (eval env e base none .path r u) (eval env e' base' none .path r v) := by
  rw [eval_step _ _ _ _ (by decide), eval_step _ _ _ _ (by decide)]
  obtain ⟨q, rfl, h1, h2⟩ := h.ex
  show FEq ((sPath none r u).andThen env e base none) ((sPath none r { u with query := q }).andThen env e' base' none)
  unfold sPath
  dsimp only
  split
  · exact ⟨rfl, h⟩
  · exact encode_afterPath (fun u v h => encode_opaquePath h []) (by exact ⟨rfl, h1, h2⟩) _

/-- states from which the base is not used, with the same record -/
theorem encode_free (n : Nat) : ∀ (st : PState) (rest : Str) (url : Rec), st.rank ≤ n → st.free = true →
    FEq (eval env e base none st rest url) (eval env e' base' none st rest url) := by
  induction n with
  | zero =>
    intro st rest url h _
    rw [rank_zero (Nat.le_zero.1 h)]
    exact encode_eof (.refl _) _
  | succ n ih =>
    intro st rest url h hf
    by_cases he : st = .eof
    · rw [he]; exact encode_eof (.refl _) _
    · by_cases hq : st = .query
      · rw [hq]; exact encode_query (.refl _) _
      · rw [eval_step _ _ _ _ he, eval_step _ _ _ _ he]
        obtain ⟨h1, h2⟩ := sstep_free env e base base' hf rest url
        have h2 := h2 he
        have hb := sstep_below env e base none st rest url
        have h3 : sstep env e' base' none st rest url = sstep env e base none st rest url := by
          rw [h1]
          cases st <;> first | rfl | exact absurd rfl hq
        rw [h3]
        cases hs : sstep env e base none st rest url with
        | fail err u => exact ⟨rfl, .refl _⟩
        | to st' r u =>
          rw [hs] at hb h2
          have hb : st'.rank < st.rank := hb
          exact ih st' r u (by omega) h2

theorem encode_free' {st : PState} (hf : st.free = true) (rest : Str) (url : Rec) :
    FEq (eval env e base none st rest url) (eval env e' base' none st rest url) :=
  encode_free 20 st rest url (rank_le _) hf

theorem encode_fileHost (r : Str) (u : Rec) :
    FEq (eval env e base none .fileHost r u) (eval env e' base' none .fileHost r u) := by
  rw [eval_step _ _ _ _ (by decide), eval_step _ _ _ _ (by decide)]
  show FEq ((sFileHost env none r u).andThen env e base none) ((sFileHost env none r u).andThen env e' base' none)
  unfold sFileHost sFileHostEnd
  split
  · exact encode_free' rfl _ _
  · split
    · exact encode_free' rfl _ _
    · split
      · exact ⟨rfl, .refl _⟩
      · exact encode_free' rfl _ _

theorem encode_relativeSlash {b b' : Rec} (hb : QEq b b') (r : Str) (u : Rec) :
    FEq (eval env e (some b) none .relativeSlash r u) (eval env e' (some b') none .relativeSlash r u) := by
  obtain ⟨q, rfl, h1, h2⟩ := hb.ex
  rw [eval_step _ _ _ _ (by decide), eval_step _ _ _ _ (by decide)]
  show FEq ((sRelativeSlash (some b) r u).andThen env e (some b) none)
    ((sRelativeSlash (some { b with query := q }) r u).andThen env e' (some { b with query := q }) none)
  unfold sRelativeSlash
  dsimp only
  split
  · exact encode_free' rfl _ _
  · split
    · exact encode_free' rfl _ _
    · exact encode_free' rfl _ _

theorem encode_relative {b b' : Rec} (hb : QEq b b') (r : Str) (u : Rec) :
    FEq (eval env e (some b) none .relative r u) (eval env e' (some b') none .relative r u) := by
  obtain ⟨q, rfl, h1, h2⟩ := hb.ex
  rw [eval_step _ _ _ _ (by decide), eval_step _ _ _ _ (by decide)]
  show FEq ((sRelative (some b) r u).andThen env e (some b) none)
    ((sRelative (some { b with query := q }) r u).andThen env e' (some { b with query := q }) none)
  unfold sRelative
  have hsp : ({ b with query := q } : Rec).isSpecial = b.isSpecial := rfl
  dsimp only
  rw [hsp]
  split
  · exact ⟨rfl, .refl _⟩
  · cases r with
    | nil => exact encode_eof (by exact ⟨rfl, h1, h2⟩) []
    | cons c cs =>
      dsimp only
      split
      · exact encode_relativeSlash hb cs _
      · split
        · exact encode_query (by exact ⟨rfl, rfl, fun _ => rfl⟩) cs
        · split
          · exact encode_fragment (by exact ⟨rfl, h1, h2⟩) cs
          · have : ({ copyBase { b with query := q } u with query := none } : Rec) =
              { copyBase b u with query := none } := rfl
            simp only [this]
            generalize ({ copyBase b u with query := none } : Rec) = w
            cases shortenRec w with
            | some v => exact encode_free' rfl _ _
            | none => exact ⟨rfl, .refl _⟩

theorem encode_filePath {b b' : Rec} (hb : QEq b b') (r : Str) (u : Rec) :
    FEq ((sFilePath (some b) r { u with scheme := u!"file" }).andThen env e (some b) none)
      ((sFilePath (some b') r { u with scheme := u!"file" }).andThen env e' (some b') none) := by
  obtain ⟨q, rfl, h1, h2⟩ := hb.ex
  unfold sFilePath
  dsimp only
  split
  · next hf =>
    have h2' : encScheme u!"file" = false → b.query = q := fun h => by cases h
    cases r with
    | nil => exact encode_path (by exact ⟨rfl, h1, h2'⟩) []
    | cons c cs =>
      dsimp only
      split
      · exact encode_query (by exact ⟨rfl, rfl, fun _ => rfl⟩) cs
      · split
        · exact encode_fragment (by exact ⟨rfl, h1, h2'⟩) cs
        · split
          · split
            · exact encode_free' rfl _ _
            · exact ⟨rfl, .refl _⟩
          · exact encode_free' rfl _ _
  · exact encode_free' rfl _ _

theorem encode_fileSlash {b b' : Rec} (hb : QEq b b') (r : Str) (u : Rec) :
    FEq (eval env e (some b) none .fileSlash r u) (eval env e' (some b') none .fileSlash r u) := by
  obtain ⟨q, rfl, h1, h2⟩ := hb.ex
  rw [eval_step _ _ _ _ (by decide), eval_step _ _ _ _ (by decide)]
  show FEq ((sFileSlash (some b) r u).andThen env e (some b) none)
    ((sFileSlash (some { b with query := q }) r u).andThen env e' (some { b with query := q }) none)
  have key : ∀ r, FEq ((sFileSlashPath (some b) r u).andThen env e (some b) none)
      ((sFileSlashPath (some { b with query := q }) r u).andThen env e' (some { b with query := q }) none) := by
    intro r
    unfold sFileSlashPath
    dsimp only
    split
    · split
      · split
        · split
          · exact encode_free' rfl _ _
          · exact ⟨rfl, .refl _⟩
        · exact encode_free' rfl _ _
      · exact encode_free' rfl _ _
    · exact encode_free' rfl _ _
  unfold sFileSlash
  cases r with
  | nil => exact key []
  | cons c cs =>
    dsimp only
    split
    · exact encode_fileHost cs u
    · exact key _

theorem encode_file {b b' : Rec} (hb : QEq b b') (r : Str) (u : Rec) :
    FEq (eval env e (some b) none .file r u) (eval env e' (some b') none .file r u) := by
  rw [eval_step _ _ _ _ (by decide), eval_step _ _ _ _ (by decide)]
  show FEq ((sFile (some b) r u).andThen env e (some b) none) ((sFile (some b') r u).andThen env e' (some b') none)
  unfold sFile
  dsimp only
  cases r with
  | nil => exact encode_filePath hb [] { u with host := some (.str []) }
  | cons c cs =>
    dsimp only
    split
    · exact encode_fileSlash hb cs _
    · exact encode_filePath hb (c :: cs) { u with host := some (.str []) }

theorem encode_file_none (r : Str) (u : Rec) :
    FEq (eval env e none none .file r u) (eval env e' none none .file r u) := by
  rw [eval_step _ _ _ _ (by decide), eval_step _ _ _ _ (by decide)]
  show FEq ((sFile none r u).andThen env e none none) ((sFile none r u).andThen env e' none none)
  unfold sFile
  dsimp only
  cases r with
  | nil => exact encode_free' rfl _ _
  | cons c cs =>
    dsimp only
    split
    · show FEq (eval env e none none .fileSlash cs _) (eval env e' none none .fileSlash cs _)
      rw [eval_step _ _ _ _ (by decide), eval_step _ _ _ _ (by decide)]
      show FEq ((sFileSlash none cs _).andThen env e none none) ((sFileSlash none cs _).andThen env e' none none)
      unfold sFileSlash
      cases cs with
      | nil => exact encode_free' rfl _ _
      | cons d ds =>
        dsimp only
        split
        · exact encode_fileHost _ _
        · exact encode_free' rfl _ _
    · exact encode_free' rfl _ _

theorem encode_noScheme (hb : BEq' base base') (r : Str) :
    FEq (eval env e base none .noScheme r {}) (eval env e' base' none .noScheme r {}) := by
  rw [eval_step _ _ _ _ (by decide), eval_step _ _ _ _ (by decide)]
  show FEq ((sNoScheme base r {}).andThen env e base none) ((sNoScheme base' r {}).andThen env e' base' none)
  cases base with
  | none =>
    cases base' with
    | some _ => exact hb.elim
    | none => exact ⟨rfl, .refl _⟩
  | some b =>
    cases base' with
    | none => exact hb.elim
    | some b' =>
      have hb : QEq b b' := hb
      obtain ⟨q, rfl, h1, h2⟩ := hb.ex
      unfold sNoScheme
      dsimp only
      have ho : ({ b with query := q } : Rec).hasOpaquePath = b.hasOpaquePath := rfl
      rw [ho]
      split
      · exact ⟨rfl, .refl _⟩
      · split
        · exact encode_fragment (by exact ⟨rfl, h1, h2⟩) _
        · split
          · exact encode_relative hb _ _
          · exact encode_file hb _ _

theorem encode_schemeStart (hb : BEq' base base') (r : Str) :
    FEq (eval env e base none .schemeStart r {}) (eval env e' base' none .schemeStart r {}) := by
  rw [eval_step _ _ _ _ (by decide), eval_step _ _ _ _ (by decide)]
  show FEq ((sScheme base none r {}).andThen env e base none) ((sScheme base' none r {}).andThen env e' base' none)
  unfold sScheme
  cases takeScheme r with
  | none =>
    simp only [Option.isNone_none, if_true]
    exact encode_noScheme hb r
  | some p =>
    simp only [Option.isSome_none, Bool.false_eq_true, if_false]
    split
    · cases base with
      | none =>
        cases base' with
        | some _ => exact hb.elim
        | none => exact encode_file_none _ _
      | some b =>
        cases base' with
        | none => exact hb.elim
        | some b' => exact encode_file hb _ _
    · split
      · cases base with
        | none =>
          cases base' with
          | some _ => exact hb.elim
          | none => exact encode_free' rfl _ _
        | some b =>
          cases base' with
          | none => exact hb.elim
          | some b' =>
            have hb : QEq b b' := hb
            have hs : b'.scheme = b.scheme := by
              obtain ⟨q, rfl, -, -⟩ := hb.ex; rfl
            by_cases hh : b.scheme = p.1
            · rw [if_pos (by simpa using hh), if_pos (by simpa [hs] using hh)]
              show FEq (eval env e (some b) none .specialRelativeOrAuthority _ _)
                (eval env e' (some b') none .specialRelativeOrAuthority _ _)
              rw [eval_step _ _ _ _ (by decide), eval_step _ _ _ _ (by decide)]
              show FEq ((sSpecialRelativeOrAuthority p.2 _).andThen env e (some b) none)
                ((sSpecialRelativeOrAuthority p.2 _).andThen env e' (some b') none)
              unfold sSpecialRelativeOrAuthority
              split
              · exact encode_free' rfl _ _
              · exact encode_relative hb _ _
            · rw [if_neg (by simpa using hh), if_neg (by simpa [hs] using hh)]
              exact encode_free' rfl _ _
      · split
        · exact encode_free' rfl _ _
        · exact encode_free' rfl _ _

end

/-- results of parsing -/
def REq : Except Err Rec → Except Err Rec → Prop
  | .ok u, .ok v => QEq u v
  | .error a, .error b => a = b
  | _, _ => False

theorem FEq.toExcept {a b : Except Err Unit × Rec} (h : FEq a b) : REq (Fin.toExcept a) (Fin.toExcept b) := by
  obtain ⟨a1, a2⟩ := a
  obtain ⟨b1, b2⟩ := b
  obtain ⟨h1, h2⟩ := h
  cases h1
  cases a1 with
  | ok _ => exact h2
  | error _ => rfl

theorem basicParse_encoding (env : Env) (s : Str) {base base' : Option Rec} (hb : BEq' base base') (e e' : Encoding) :
    REq (basicParse env s base e).toExcept (basicParse env s base' e').toExcept := by
  rw [basicParse_toExcept, basicParse_toExcept]
  exact (encode_schemeStart hb _).toExcept

theorem parseUrl_encoding (env : Env) (s : Str) (base : BaseArg) (e e' : Encoding) :
    REq (parseUrl env s base e).res (parseUrl env s base e').res := by
  cases base with
  | none => exact basicParse_encoding env s (base := none) (base' := none) trivial e e'
  | record b => exact basicParse_encoding env s (base := some b) (base' := some b) (QEq.refl b) e e'
  | str b =>
    rw [parseUrl_str, parseUrl_str]
    have := basicParse_encoding env b (base := none) (base' := none) trivial e e'
    cases h1 : (basicParse env b none e).toExcept with
    | error a =>
      cases h2 : (basicParse env b none e').toExcept with
      | error c => rw [h1, h2] at this; exact this
      | ok v => rw [h1, h2] at this; exact this.elim
    | ok u =>
      cases h2 : (basicParse env b none e').toExcept with
      | error c => rw [h1, h2] at this; exact this.elim
      | ok v => rw [h1, h2] at this; exact basicParse_encoding env s (base := some u) (base' := some v) this e e'

end Urlstd
