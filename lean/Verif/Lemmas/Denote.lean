/-
The rules of `Spec/Denote.lean`: the parser gives what they say, and every text falls under one of them. Uses the properties C81 and
C82, one of which belongs to each rule.
-/
import Verif.Spec.Denote
import Verif.Props.Anatomy2

namespace Urlstd.Props

open Spec (IsStr SchemeText TabOrNewline C0OrSpace Parts Clean TailOK tailText pathOf follow segmentsOf fileURL Slash NoSlash
  Relative FileText Denotes HasScheme)

theorem eval_relative {env : Env} {b : Rec} {r : Str} {s0 : Str} (hnf : b.scheme ≠ u!"file") :
    eval env .utf8 (some b) none .relative r { scheme := s0 } = (sRelative (some b) r {}).andThen env .utf8 (some b) none := by
  rw [eval_step _ _ _ _ (by decide)]
  show (sRelative (some b) r { scheme := s0 }).andThen env .utf8 (some b) none = _
  congr 1
  unfold sRelative copyBase
  dsimp only
  rw [if_neg hnf, if_neg hnf]

theorem isPathSep_of_slash {sp : Bool} {c : Nat} : isPathSep sp c = true ↔ Slash sp c := by
  simp [isPathSep, Slash]

theorem relativeSlash_eq {sp : Bool} {c : Nat} : ((decide (c = 47) || (sp && decide (c = 92))) = true) ↔ Slash sp c := by
  simp [Slash]

/-- the relative state gives what the rules say -/
theorem relative_sound {env : Env} {b : Rec} {r : Str} {x : Except Err Rec} (hnf : b.scheme ≠ u!"file") (h : Relative env b r x)
    (hs : IsStr r) : Fin.toExcept ((sRelative (some b) r {}).andThen env .utf8 (some b) none) = x := by
  have hsp : b.isSpecial = Spec.isSpecial b.scheme := (isSpecial_eq _).symm
  have hfile : Spec.isFile b.scheme = false := by simpa [Spec.isFile] using hnf
  cases h with
  | same q f ok =>
    rw [tailText_eq, List.nil_append] at hs ⊢
    obtain ⟨-, h2, h3⟩ := tail_str (path := []) (q := q) (f := f) (by simpa using hs)
    unfold sRelative
    dsimp only
    rw [if_neg hnf]
    cases q with
    | some q =>
      have hq := query_map_eq { copyBase b {} with query := none } h2
      have h := eval_afterPath_any (env := env) (e := .utf8) (base := some b) (st := .eof) (f := f)
        (url := { copyBase b {} with query := none }) (eval_eof ..) rfl rfl ok.2
      rw [hq, fragment_map_eq h3] at h
      have hx : ({ copyBase b {} with query := none } : Rec).isSpecial = Spec.isSpecial b.scheme := hsp
      rw [hx] at h
      have hr : (tailStr (some q) f) = 63 :: (q ++ (f.elim [] fun y => 35 :: y)) := by
        unfold tailStr; cases f <;> simp
      rw [hr] at h ⊢
      dsimp only
      rw [if_neg (by simp), if_pos rfl]
      have : (afterPath .eof (63 :: (q ++ (f.elim [] fun y => 35 :: y))) { copyBase b {} with query := none }) =
          SOut.to .query (q ++ (f.elim [] fun y => 35 :: y)) { copyBase b {} with query := some [] } := rfl
      rw [this] at h
      rw [h]
      rfl
    | none =>
      cases f with
      | none =>
        show Fin.toExcept (eval env .utf8 (some b) none .eof [] (copyBase b {})) = _
        rw [eval_eof]
        rfl
      | some f =>
        rw [show tailStr none (some f) = 35 :: f by simp [tailStr]]
        dsimp only
        rw [if_neg (by simp), if_neg (by simp), if_pos rfl]
        show Fin.toExcept (eval env .utf8 (some b) none .fragment f { copyBase b {} with fragment := some [] }) = _
        rw [eval_fragment_any rfl, List.nil_append, fragmentEncode_eq (h3 f rfl)]
        rfl
  | path p t q f hp hne ht ok =>
    rw [tailText_eq] at hs ⊢
    cases t with
    | nil => exact absurd rfl hne
    | cons c cs =>
      unfold sRelative
      dsimp only [List.cons_append]
      have h2 := ok.1 c (by simp)
      rw [if_neg hnf, if_neg (by rw [relativeSlash_eq, hsp]; exact ht c rfl), if_neg h2.1, if_neg h2.2]
      have : shortenRec { copyBase b {} with query := none } =
          some { copyBase b {} with query := none, path := .list (Spec.parent false p) } := by
        unfold shortenRec copyBase
        dsimp only
        rw [hp]
        dsimp only
        rw [parent_eq, hfile]
      rw [this]
      show Fin.toExcept (eval env .utf8 (some b) none .path ((c :: cs) ++ tailStr q f) _) = _
      rw [eval_path_follow rfl rfl rfl ok hs]
      show Except.ok _ = _
      have hx : ({ copyBase b {} with query := none, path := .list (Spec.parent false p) } : Rec).isSpecial = Spec.isSpecial b.scheme := hsp
      rw [hx]
      show Except.ok ({ b with path := .list (follow (Spec.isFile b.scheme) _ _), query := _, fragment := _ } : Rec) = _
      rw [hfile]
  | rooted s t q f hsl ht ok =>
    rw [tailText_eq] at hs ⊢
    unfold sRelative
    dsimp only
    rw [if_neg hnf, if_pos (by rw [relativeSlash_eq, hsp]; exact hsl)]
    show Fin.toExcept (eval env .utf8 (some b) none .relativeSlash (t ++ tailStr q f) { scheme := b.scheme }) = _
    rw [eval_step _ _ _ _ (by decide)]
    show Fin.toExcept ((sRelativeSlash (some b) (t ++ tailStr q f) { scheme := b.scheme }).andThen env .utf8 (some b) none) = _
    have hh : ∀ c, (t ++ tailStr q f).head? = some c → ¬ Slash (Spec.isSpecial b.scheme) c := by
      intro c hc
      rcases path_head hc with hc | rfl | rfl
      · exact ht c hc
      · simp [Slash]
      · simp [Slash]
    have hx : ({ scheme := b.scheme } : Rec).isSpecial = Spec.isSpecial b.scheme := (isSpecial_eq _).symm
    unfold sRelativeSlash
    dsimp only
    rw [hx, if_neg, if_neg]
    · show Fin.toExcept (eval env .utf8 (some b) none .path (t ++ tailStr q f) _) = _
      rw [eval_path_follow (out := []) rfl rfl rfl ok (fun c hc => hs c (by simp at hc ⊢; simp [hc]))]
      show Except.ok ({ b with path := .list (follow (Spec.isFile b.scheme) _ (segmentsOf b.isSpecial t)), query := q.map (Spec.queryEncode b.isSpecial), fragment := _ } : Rec) = _
      rw [hfile, hsp]
    · intro h
      exact hh _ h (.inl rfl)
    · intro h
      simp only [Bool.and_eq_true, Bool.or_eq_true, decide_eq_true_eq] at h
      rcases h with ⟨h1, h2 | h2⟩
      · exact hh _ h2 (.inr ⟨h1, rfl⟩)
      · exact hh _ h2 (.inl rfl)
  | authority s1 s2 sl p h1 h2 hsl ok =>
    unfold sRelative
    dsimp only
    rw [if_neg hnf, if_pos (by rw [relativeSlash_eq, hsp]; exact h1)]
    show Fin.toExcept (eval env .utf8 (some b) none .relativeSlash (s2 :: (sl ++ p.text)) { scheme := b.scheme }) = _
    rw [eval_step _ _ _ _ (by decide)]
    show Fin.toExcept ((sRelativeSlash (some b) (s2 :: (sl ++ p.text)) { scheme := b.scheme }).andThen env .utf8 (some b) none) = _
    have hx : ({ scheme := b.scheme } : Rec).isSpecial = Spec.isSpecial b.scheme := (isSpecial_eq _).symm
    have hstr : IsStr p.text := fun c hc => hs c (by simp [hc])
    unfold sRelativeSlash
    dsimp only
    rw [hx]
    cases hspb : Spec.isSpecial b.scheme with
    | true =>
      rw [hspb] at h2 ok
      rw [if_pos (by rcases h2 with rfl | ⟨-, rfl⟩ <;> rfl)]
      show Fin.toExcept (eval env .utf8 (some b) none .specialAuthorityIgnoreSlashes (sl ++ p.text) { scheme := b.scheme }) = _
      rw [eval_step _ _ _ _ (by decide)]
      show Fin.toExcept (eval env .utf8 (some b) none .authority ((sl ++ p.text).dropWhile isSlash) { scheme := b.scheme }) = _
      rw [dropWhile_append (fun c hc => by rcases (hsl c hc).2 with rfl | ⟨-, rfl⟩ <;> rfl) fun c hc => parts_head ok hc]
      exact eval_authority_parts (by rw [hspb]; exact ok) hstr
    | false =>
      rw [hspb] at h2 ok hsl
      have : sl = [] := by
        cases sl with
        | nil => rfl
        | cons c cs => exact absurd (hsl c (.head _)).1 (by simp)
      subst this
      rw [if_neg (by simp)]
      have : s2 = 47 := by simpa [Slash] using h2
      subst this
      rw [if_pos (show (47 :: ([] ++ p.text)).head? = some 47 from rfl)]
      exact eval_authority_parts (by rw [hspb]; exact ok) hstr

theorem file_text_eval {env : Env} {base : Option Rec} {r : Str} (hc : Clean r) :
    (parseUrl env (u!"file" ++ u!":" ++ r) (baseArg base)).res =
      Fin.toExcept (eval env .utf8 base none .file r { scheme := u!"file" }) := by
  rw [parse_baseArg_res, colon_cons, parse_scheme ⟨c!"f", u!"ile", rfl, by decide, by decide⟩, clean_prepEnd hc]
  rfl

theorem file_scheme : SchemeText u!"file" := ⟨c!"f", u!"ile", rfl, by decide, by decide⟩

theorem slash_true {c : Nat} : Slash true c ↔ c = c!"/" ∨ c = c!"\\" := by simp [Slash]

theorem noSlash_true {t : Str} (h : NoSlash true t) : ∀ c, t.head? = some c → c ≠ c!"/" ∧ c ≠ c!"\\" := by
  intro c hc
  have := h c hc
  rw [slash_true] at this
  exact not_or.1 this

theorem clean_suffix {a r : Str} (h : Clean (a ++ r)) : Clean r := by
  refine ⟨fun c hc => h.1 c (by simp [hc]), fun c hc => h.2.1 c (by simp [hc]), fun c hc => h.2.2 c ?_⟩
  rw [List.getLast?_append, hc]
  rfl

/-- the file state gives what the rules say -/
theorem file_sound {env : Env} {base : Option Rec} {r : Str} {x : Except Err Rec} (h : FileText env base r x) (hc : Clean r) :
    Fin.toExcept (eval env .utf8 base none .file r { scheme := u!"file" }) = x := by
  rw [← file_text_eval hc]
  have hend : ∀ {host : Str}, (∀ c ∈ host, ¬ Spec.AuthorityEnd true c) → ∀ c ∈ host, c ≠ c!"/" ∧ c ≠ c!"\\" ∧ c ≠ c!"?" ∧ c ≠ c!"#" := by
    intro host hh c hc
    have := hh c hc
    unfold Spec.AuthorityEnd at this
    simp only [true_and, not_or] at this
    exact ⟨this.1, this.2.2.2, this.2.1, this.2.2.1⟩
  cases h with
  | noHost s1 s2 path q f h1 h2 hp ok =>
    have := C82_file_host env u!"file" [] path s1 s2 q f base file_scheme (by decide) (slash_true.1 h1) (slash_true.1 h2) (by simp)
      (by decide) (fun c hc => slash_true.1 (hp c hc)) ok (clean_suffix (a := [s1, s2]) hc)
    exact this
  | host s1 s2 host path q f v h1 h2 hne hh hd hv hp ok =>
    have := C82_file_host env u!"file" host path s1 s2 q f base file_scheme (by decide) (slash_true.1 h1) (slash_true.1 h2) (hend hh)
      hd (fun c hc => slash_true.1 (hp c hc)) ok (clean_suffix (a := [s1, s2]) hc)
    rw [if_neg hne, hv] at this
    exact this
  | badHost s1 s2 host path q f e h1 h2 hne hh hd he hp ok =>
    have := C82_file_host env u!"file" host path s1 s2 q f base file_scheme (by decide) (slash_true.1 h1) (slash_true.1 h2) (hend hh)
      hd (fun c hc => slash_true.1 (hp c hc)) ok (clean_suffix (a := [s1, s2]) hc)
    rw [if_neg hne, he] at this
    exact this
  | drive s1 s2 host path q f h1 h2 hd hp ok =>
    exact C82_file_drive env u!"file" host path s1 s2 q f base file_scheme (by decide) (slash_true.1 h1) (slash_true.1 h2) hd
      (fun c hc => slash_true.1 (hp c hc)) ok (clean_suffix (a := [s1, s2]) hc)
  | rooted s t q f hs ht ok =>
    exact C82_file_rooted env u!"file" t s q f base file_scheme (by decide) (slash_true.1 hs) (noSlash_true ht) ok
      (clean_suffix (a := [s]) hc)
  | plain t q f hb ht ok =>
    exact C82_file_plain env u!"file" t q f base file_scheme (by decide) hb (noSlash_true ht) ok hc
  | path b p t q f hbase hb hp hne ht ok =>
    subst hbase
    exact C82_file_relative env u!"file" t q f b p file_scheme (by decide) hb hp hne (noSlash_true ht) ok hc
  | same b q f hbase hb hne ok =>
    subst hbase
    exact C82_file_same env u!"file" q f b file_scheme (by decide) hb hne ok hc
  | empty b p hbase hb hp =>
    subst hbase
    rw [file_text_eval hc, eval_step _ _ _ _ (by decide)]
    show Fin.toExcept ((sFile (some b) [] { scheme := u!"file" }).andThen env .utf8 (some b) none) = _
    unfold sFile sFilePath
    dsimp only
    rw [if_pos hb]
    show Fin.toExcept (eval env .utf8 (some b) none .path [] { scheme := u!"file", host := b.host, path := b.path, query := b.query }) = _
    rw [hp, eval_step _ _ _ _ (by decide)]
    show Fin.toExcept (eval env .utf8 (some b) none .opaquePath [] _) = _
    rw [eval_opaquePath_nil]
    show Except.ok _ = _
    have hpp : ∀ sp, pathPieces sp (pathText false []) = [[]] := fun _ => rfl
    simp only [Option.isSome, hpp, addPieces, addSegment_nil]

theorem file_state {env : Env} {base : Option Rec} {r : Str} :
    eval env .utf8 base none .file r {} = eval env .utf8 base none .file r { scheme := u!"file" } := by
  rw [eval_step _ _ _ _ (by decide), eval_step _ _ _ _ (by decide)]
  rfl

/-- what remains of an input when tabs, newlines and what surrounds it are removed -/
def Trimmed (r : Str) : Prop := Clean r ∧ ∀ c, r.head? = some c → ¬ C0OrSpace c

theorem trimmed_prepared {r : Str} (h : Trimmed r) : prepared r none = r := by
  cases r with
  | nil => rfl
  | cons x xs =>
    have hx : isC0OrSpace x = false := by
      have := h.2 x rfl
      rw [← isC0OrSpace_iff] at this
      simpa using this
    have := prepared_append (a := [x]) (b := xs) (by intro c hc; simp at hc; subst hc; exact hx) (by simp)
    rw [show [x] ++ xs = x :: xs from rfl] at this
    rw [this, ← prepEnd_append (by intro c hc; simp at hc; subst hc; exact hx)]
    exact clean_prepEnd h.1

theorem slashes_colon (sc r : Str) : sc ++ u!"://" ++ r = sc ++ u!":" ++ (u!"//" ++ r) := by simp

theorem no_scheme_hash (f : Str) : ¬ HasScheme (35 :: f) := by
  rintro ⟨sc, rest, ⟨c, cs, rfl, hc, -⟩, h⟩
  simp only [List.cons_append] at h
  injection h with h _
  subst h
  exact absurd hc (by decide)

/-- the parser gives what the rules say -/
theorem denotes_sound {env : Env} {base : Option Rec} {r : Str} {x : Except Err Rec} (h : Denotes env base r x) (ht : Trimmed r) :
    (parseUrl env r (baseArg base)).res = x := by
  have hnoSlash : ∀ {t : Str}, NoSlash false t → t.head? ≠ some 47 := fun h hh => h 47 hh (.inl rfl)
  cases h with
  | file sc r x hsc hf h =>
    have hc := clean_suffix ht.1
    rw [parse_baseArg_res, colon_cons, parse_scheme hsc, clean_prepEnd hc]
    dsimp only
    rw [if_pos hf, hf]
    exact file_sound h hc
  | special sc sl p hsc hs hf hb hsl ok =>
    exact C82_special env sc sl p base hsc hs hf hb ok (fun c hc => slash_true.1 (hsl c hc)) (clean_suffix (clean_suffix ht.1))
  | specialSlashes sc sl p hsc hs hf hsl ok =>
    have hc := clean_suffix (clean_suffix ht.1)
    have := C81_absolute env sc sl p hsc hf (by rw [hs]; exact ok) (by rw [hs, if_pos rfl]; exact fun c hc => slash_true.1 (hsl c hc))
      hc.1 hc.2.1 hc.2.2
    rw [List.append_assoc (sc ++ u!"://")] at this
    cases base with
    | none => exact this.1
    | some b => exact this.2 b
  | sameScheme sc r b x hsc hs hf hbase hb h2 h =>
    subst hbase
    have hc := clean_suffix ht.1
    have hspe : ({ scheme := Spec.toLower sc } : Rec).isSpecial = true := by rw [← hs]; exact (isSpecial_eq _).symm
    rw [parse_baseArg_res, colon_cons, parse_scheme hsc, clean_prepEnd hc]
    dsimp only
    rw [if_neg hf, hspe, if_pos rfl, if_pos (by simp [hb])]
    show Fin.toExcept (eval env .utf8 (some b) none .specialRelativeOrAuthority r { scheme := Spec.toLower sc }) = _
    rw [eval_step _ _ _ _ (by decide)]
    show Fin.toExcept ((sSpecialRelativeOrAuthority r { scheme := Spec.toLower sc }).andThen env .utf8 (some b) none) = _
    unfold sSpecialRelativeOrAuthority
    rw [if_neg]
    · show Fin.toExcept (eval env .utf8 (some b) none .relative r { scheme := Spec.toLower sc }) = _
      rw [eval_relative (by rw [hb]; exact hf)]
      exact relative_sound (by rw [hb]; exact hf) h hc.1
    · intro h
      refine h2 (r.drop 2) ?_
      rw [← h, List.take_append_drop]
  | authority sc p hsc hs ok =>
    have hc := clean_suffix ht.1
    have hf : Spec.toLower sc ≠ u!"file" := by
      intro h; rw [h] at hs; exact absurd hs (by decide)
    have := C81_absolute env sc [] p hsc hf (by rw [hs]; exact ok) (by rw [hs]; simp) hc.1 hc.2.1 hc.2.2
    rw [List.append_nil] at this
    cases base with
    | none => exact this.1
    | some b => exact this.2 b
  | rooted sc t q f hsc hs hns ok =>
    have hc := clean_suffix (a := sc ++ u!":") (r := tailText (47 :: t) q f) (by
      have := ht.1
      simpa [tailText] using this)
    have := C82_rooted env sc (47 :: t) q f base hsc hs ⟨by
      intro c hc
      rcases List.mem_cons.1 hc with rfl | hc
      · decide
      · exact ok.1 c hc, ok.2⟩ hc rfl (hnoSlash hns)
    rw [show sc ++ u!":/" ++ tailText t q f = sc ++ u!":" ++ tailText (47 :: t) q f by simp [tailText], this]
    have : Spec.isFile (Spec.toLower sc) = false := by
      rw [Bool.eq_false_iff]
      intro h
      rw [beq_iff_eq.1 h] at hs
      exact absurd hs (by decide)
    unfold pathOf
    dsimp only
    rw [this, hs]
  | «opaque» sc t q f hsc hs hns ok =>
    exact C82_opaque env sc t q f base hsc hs ok (clean_suffix ht.1) (hnoSlash hns)
  | noBase r hr hb =>
    subst hb
    rw [parse_baseArg_res, parse_noScheme (by rw [trimmed_prepared ht]; exact takeScheme_none hr), eval_step _ _ _ _ (by decide)]
    rfl
  | opaqueFragment f b t hbase hp =>
    subst hbase
    rw [parse_baseArg_res, parse_noScheme (by rw [trimmed_prepared ht]; exact takeScheme_none (no_scheme_hash f)), trimmed_prepared ht,
      eval_step _ _ _ _ (by decide)]
    have ho : b.hasOpaquePath = true := by unfold Rec.hasOpaquePath; rw [hp]
    show Fin.toExcept ((sNoScheme (some b) (35 :: f) {}).andThen env .utf8 (some b) none) = _
    unfold sNoScheme
    dsimp only
    rw [ho, if_neg (by simp), if_pos rfl]
    show Fin.toExcept (eval env .utf8 (some b) none .fragment f _) = _
    rw [eval_fragment_any rfl, List.nil_append, fragmentEncode_eq (fun c hc => ht.1.1 c (by simp [hc]))]
    rfl
  | opaqueOther r b t hr hbase hp hh =>
    subst hbase
    rw [parse_baseArg_res, parse_noScheme (by rw [trimmed_prepared ht]; exact takeScheme_none hr), trimmed_prepared ht,
      eval_step _ _ _ _ (by decide)]
    have ho : b.hasOpaquePath = true := by unfold Rec.hasOpaquePath; rw [hp]
    show Fin.toExcept ((sNoScheme (some b) r {}).andThen env .utf8 (some b) none) = _
    unfold sNoScheme
    dsimp only
    rw [ho, if_pos (by simpa using hh)]
    rfl
  | fileBase r b p x hr hbase hp hf h =>
    subst hbase
    rw [parse_baseArg_res, parse_noScheme (by rw [trimmed_prepared ht]; exact takeScheme_none hr), trimmed_prepared ht,
      eval_noScheme_file hp hf]
    have := file_sound h ht.1
    rw [← file_state, eval_step _ _ _ _ (by decide)] at this
    exact this
  | reference r b p x hr hbase hp hf h =>
    subst hbase
    rw [parse_baseArg_res, parse_noScheme (by rw [trimmed_prepared ht]; exact takeScheme_none hr), trimmed_prepared ht,
      eval_noScheme_relative hp hf]
    exact relative_sound hf h ht.1.1

/-! ### Every text falls under a rule -/

/-- a text in front of which there is no slash has a path without one -/
theorem tail_noSlash {sp : Bool} {t : Str} {q f : Option Str} (h : NoSlash sp (tailText t q f)) : NoSlash sp t := by
  cases t with
  | nil => exact fun c hc => by cases hc
  | cons x xs => exact fun c hc => h c (by rw [tailText_eq]; exact hc)

theorem noSlash_or (sp : Bool) (r : Str) : (∃ s t, r = s :: t ∧ Slash sp s) ∨ NoSlash sp r := by
  cases r with
  | nil => exact .inr fun c hc => by cases hc
  | cons c cs =>
    by_cases h : Slash sp c
    · exact .inl ⟨c, cs, rfl, h⟩
    · refine .inr fun d hd => ?_
      obtain rfl : c = d := by simpa using hd
      exact h

/-- slashes, and the parts behind them -/
theorem slashes_parts (r : Str) : ∃ (sl : Str) (p : Parts), r = sl ++ p.text ∧ (∀ c ∈ sl, Slash true c) ∧ p.OK true := by
  let q : Nat → Bool := fun c => c = 47 ∨ c = 92
  obtain ⟨p, ok, ht, -⟩ := C81_parts true (r.dropWhile q) (by
    intro _ c hc
    have := List.head?_dropWhile_not q r
    rw [hc] at this
    have : ¬ (c = 47 ∨ c = 92) := by simpa [q] using this
    exact not_or.1 this)
  refine ⟨r.takeWhile q, p, by rw [ht, List.takeWhile_append_dropWhile], fun c hc => ?_, ok⟩
  have := tailParts_text.mem_takeWhile_true hc
  rw [slash_true]
  simpa [q] using this

theorem relative_total (env : Env) {b : Rec} {p : List Str} (hp : b.path = .list p) (r : Str) : ∃ x, Relative env b r x := by
  rcases noSlash_or (Spec.isSpecial b.scheme) r with ⟨s1, r1, rfl, h1⟩ | h
  · rcases noSlash_or (Spec.isSpecial b.scheme) r1 with ⟨s2, r2, rfl, h2⟩ | h
    · cases hsp : Spec.isSpecial b.scheme with
      | true =>
        obtain ⟨sl, p, rfl, h3, ok⟩ := slashes_parts r2
        exact ⟨_, .authority s1 s2 sl p h1 h2 (fun c hc => ⟨hsp, h3 c hc⟩) (by rw [hsp]; exact ok)⟩
      | false =>
        obtain ⟨p, ok, rfl, -⟩ := C81_parts false r2 (by simp)
        exact ⟨_, .authority s1 s2 [] p h1 h2 (by simp) (by rw [hsp]; exact ok)⟩
    · obtain ⟨⟨t, q, f, rfl, ok⟩, -⟩ := C82_tail r1
      exact ⟨_, .rooted s1 t q f h1 (tail_noSlash h) ok⟩
  · obtain ⟨⟨t, q, f, rfl, ok⟩, -⟩ := C82_tail r
    by_cases hne : t = []
    · subst hne
      exact ⟨_, .same q f ok⟩
    · exact ⟨_, .path p t q f hp hne (tail_noSlash h) ok⟩

theorem file_total (env : Env) {base : Option Rec} (hb : ∀ b, base = some b → b.scheme = u!"file" → ∃ p, b.path = .list p) (r : Str) :
    ∃ x, FileText env base r x := by
  rcases noSlash_or true r with ⟨s1, r1, rfl, h1⟩ | h
  · rcases noSlash_or true r1 with ⟨s2, r2, rfl, h2⟩ | h
    · have hd : ∀ c, (r2.dropWhile notFileHostEnd).head? = some c → notFileHostEnd c = false := by
        intro c hc
        have := List.head?_dropWhile_not notFileHostEnd r2
        rw [hc] at this
        simpa using this
      have hh : ∀ c ∈ r2.takeWhile notFileHostEnd, ¬ Spec.AuthorityEnd true c := by
        intro c hc
        have := tailParts_text.mem_takeWhile_true hc
        have h3 : ¬ (c = 47 ∨ c = 92 ∨ c = 63 ∨ c = 35) := by rw [← notFileHostEnd_iff, this]; simp
        unfold Spec.AuthorityEnd
        simp only [true_and]
        omega
      obtain ⟨⟨t, q, f, ht, ok⟩, -⟩ := C82_tail (r2.dropWhile notFileHostEnd)
      have hp : ∀ c, t.head? = some c → Slash true c := by
        intro c hc
        have hc' : (r2.dropWhile notFileHostEnd).head? = some c := by
          rw [ht, tailText_eq]
          cases t with
          | nil => cases hc
          | cons x xs => exact hc
        have h3 := notFileHostEnd_iff.1 (hd c hc')
        have h4 : c ∈ t := List.mem_of_mem_head? hc
        have := ok.1 c h4
        rw [slash_true]
        omega
      have hr : r2 = r2.takeWhile notFileHostEnd ++ tailText t q f := by rw [← ht, List.takeWhile_append_dropWhile]
      rw [hr]
      generalize r2.takeWhile notFileHostEnd = host at hh
      by_cases hne : host = []
      · subst hne
        exact ⟨_, .noHost s1 s2 t q f h1 h2 hp ok⟩
      · cases hdr : Spec.isDrive host with
        | true => exact ⟨_, .drive s1 s2 host t q f h1 h2 hdr hp ok⟩
        | false =>
          cases hv : (hostParse env host false).res with
          | ok v => exact ⟨_, .host s1 s2 host t q f v h1 h2 hne hh hdr hv hp ok⟩
          | error e => exact ⟨_, .badHost s1 s2 host t q f e h1 h2 hne hh hdr hv hp ok⟩
    · obtain ⟨⟨t, q, f, rfl, ok⟩, -⟩ := C82_tail r1
      exact ⟨_, .rooted s1 t q f h1 (tail_noSlash h) ok⟩
  · obtain ⟨⟨t, q, f, rfl, ok⟩, -⟩ := C82_tail r
    by_cases hfb : ∃ b, base = some b ∧ b.scheme = u!"file"
    · obtain ⟨b, rfl, hf⟩ := hfb
      obtain ⟨p, hp⟩ := hb b rfl hf
      by_cases hne : t = []
      · subst hne
        by_cases hqf : q ≠ none ∨ f ≠ none
        · exact ⟨_, .same b q f rfl hf hqf ok⟩
        · obtain ⟨rfl, rfl⟩ : q = none ∧ f = none := by
            constructor
            · exact Decidable.byContradiction fun h => hqf (.inl h)
            · exact Decidable.byContradiction fun h => hqf (.inr h)
          exact ⟨_, .empty b p rfl hf hp⟩
      · exact ⟨_, .path b p t q f rfl hf hp hne (tail_noSlash h) ok⟩
    · exact ⟨_, .plain t q f (fun b h1 h2 => hfb ⟨b, h1, h2⟩) (tail_noSlash h) ok⟩

theorem denotes_total (env : Env) {base : Option Rec} (hb : Spec.GoodBase base) (r : Str) : ∃ x, Denotes env base r x := by
  have hfile : ∀ b, base = some b → b.scheme = u!"file" → ∃ p, b.path = .list p := by
    intro b h1 h2
    exact hb b h1 (by rw [h2]; decide)
  by_cases hr : HasScheme r
  · obtain ⟨sc, r, hsc, rfl⟩ := hr
    by_cases hf : Spec.toLower sc = u!"file"
    · obtain ⟨x, hx⟩ := file_total env hfile r
      exact ⟨x, .file sc r x hsc hf hx⟩
    · cases hs : Spec.isSpecial (Spec.toLower sc) with
      | true =>
        by_cases h2 : ∃ t, r = u!"//" ++ t
        · obtain ⟨t, rfl⟩ := h2
          obtain ⟨sl, p, rfl, h3, ok⟩ := slashes_parts t
          rw [← slashes_colon]
          exact ⟨_, .specialSlashes sc sl p hsc hs hf h3 ok⟩
        · by_cases hsame : ∃ b, base = some b ∧ b.scheme = Spec.toLower sc
          · obtain ⟨b, hbase, hbs⟩ := hsame
            obtain ⟨p, hp⟩ := hb b hbase (by rw [hbs]; exact hs)
            obtain ⟨x, hx⟩ := relative_total env hp r
            exact ⟨x, .sameScheme sc r b x hsc hs hf hbase hbs (fun t ht => h2 ⟨t, ht⟩) hx⟩
          · obtain ⟨sl, p, rfl, h3, ok⟩ := slashes_parts r
            exact ⟨_, .special sc sl p hsc hs hf (fun b h1 h2 => hsame ⟨b, h1, h2⟩) h3 ok⟩
      | false =>
        rcases noSlash_or false r with ⟨s1, r1, rfl, h1⟩ | h
        · obtain rfl : s1 = 47 := by simpa [Slash] using h1
          rcases noSlash_or false r1 with ⟨s2, r2, rfl, h2⟩ | h
          · obtain rfl : s2 = 47 := by simpa [Slash] using h2
            obtain ⟨p, ok, rfl, -⟩ := C81_parts false r2 (by simp)
            refine ⟨p.url env (Spec.toLower sc), ?_⟩
            have := Denotes.authority (env := env) (base := base) sc p hsc hs ok
            rwa [slashes_colon] at this
          · obtain ⟨⟨t, q, f, rfl, ok⟩, -⟩ := C82_tail r1
            have := Denotes.rooted (env := env) (base := base) sc t q f hsc hs (tail_noSlash h) ok
            rw [show sc ++ u!":/" ++ tailText t q f = sc ++ u!":" ++ 47 :: tailText t q f by simp] at this
            exact ⟨_, this⟩
        · obtain ⟨⟨t, q, f, rfl, ok⟩, -⟩ := C82_tail r
          exact ⟨_, .opaque sc t q f hsc hs (tail_noSlash h) ok⟩
  · cases base with
    | none => exact ⟨_, .noBase r hr rfl⟩
    | some b =>
      cases hp : b.path with
      | «opaque» t =>
        by_cases hh : r.head? = some c!"#"
        · cases r with
          | nil => cases hh
          | cons c f =>
            obtain rfl : c = 35 := by simpa using hh
            exact ⟨_, .opaqueFragment f b t rfl hp⟩
        · exact ⟨_, .opaqueOther r b t hr rfl hp hh⟩
      | list p =>
        by_cases hf : b.scheme = u!"file"
        · obtain ⟨x, hx⟩ := file_total env hfile r
          exact ⟨x, .fileBase r b p x hr rfl hp hf hx⟩
        · obtain ⟨x, hx⟩ := relative_total env hp r
          exact ⟨x, .reference r b p x hr rfl hp hf hx⟩

theorem prepared_trimmed {s : Str} (hs : IsStr s) : Trimmed (prepared s none) := by
  have he : prepared s none = stripBoth isC0OrSpace (removeTabNewline s) := by
    rw [← prepared_tabs]
    show removeTabNewline (stripBoth isC0OrSpace (removeTabNewline s)) = _
    refine removeTabNewline_id fun c hc => ?_
    have := stripBoth_subset _ _ c hc
    unfold removeTabNewline at this
    simpa using (List.mem_filter.1 this).2
  refine ⟨⟨(prepared_ok hs).1, ?_, ?_⟩, ?_⟩
  · intro c hc
    unfold prepared removeTabNewline at hc
    have := (List.mem_filter.1 hc).2
    rw [← isTabNewline_iff]
    simpa using this
  · intro c hc
    rw [he] at hc
    rw [← isC0OrSpace_iff, stripBoth_last _ _ c hc]
    simp
  · intro c hc
    rw [he, stripBoth_eq] at hc
    obtain ⟨t, h1, -, -⟩ := stripRight_split isC0OrSpace ((removeTabNewline s).dropWhile isC0OrSpace)
    have h2 : ((removeTabNewline s).dropWhile isC0OrSpace).head? = some c := by
      rw [h1]
      cases h : stripRight isC0OrSpace ((removeTabNewline s).dropWhile isC0OrSpace) with
      | nil => rw [h] at hc; cases hc
      | cons x xs => rw [h] at hc; exact hc
    have := List.head?_dropWhile_not isC0OrSpace (removeTabNewline s)
    rw [h2] at this
    rw [← isC0OrSpace_iff]
    simpa using this

end Urlstd.Props
