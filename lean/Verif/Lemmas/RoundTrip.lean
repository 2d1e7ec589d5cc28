/-
Parsing the serialization of a well-formed record gives that record.
-/
import Verif.Lemmas.Parsed

set_option linter.unusedSimpArgs false
set_option linter.unusedVariables false

namespace Urlstd

open Spec (IsStr)

variable {env : Env} {P : Bool → Host → Prop}

/-! ### The removals at the start -/

theorem dropWhile_none {p : Nat → Bool} {s : Str} (h : ∀ c, s.head? = some c → p c = false) : s.dropWhile p = s := by
  cases s with
  | nil => rfl
  | cons c cs => simp [List.dropWhile, h c rfl]

theorem stripBoth_id {p : Nat → Bool} {s : Str} (h1 : ∀ c, s.head? = some c → p c = false)
    (h2 : ∀ c, s.getLast? = some c → p c = false) : stripBoth p s = s := by
  unfold stripBoth
  rw [dropWhile_none h1, dropWhile_none, List.reverse_reverse]
  intro c hc
  rw [List.head?_reverse] at hc
  exact h2 c hc

theorem removeTabNewline_id {s : Str} (h : ∀ c ∈ s, isTabNewline c = false) : removeTabNewline s = s := by
  unfold removeTabNewline
  rw [List.filter_eq_self]
  intro c hc
  simp [h c hc]

theorem prepared_id {s : Str} (hs : ∀ c ∈ s, 32 ≤ c) (h1 : s.head? ≠ some 32) (h2 : s.getLast? ≠ some 32) :
    prepared s none = s := by
  have key : ∀ c ∈ s, c ≠ 32 → isC0OrSpace c = false := by
    intro c hc hne
    have := hs c hc
    simp only [isC0OrSpace, decide_eq_false_iff_not]; omega
  unfold prepared
  dsimp only
  rw [stripBoth_id, removeTabNewline_id]
  · intro c hc
    have := hs c hc
    simp only [isTabNewline, Bool.or_eq_false_iff, beq_eq_false_iff_ne]; omega
  · intro c hc
    exact key c (List.mem_of_mem_head? hc) (by rintro rfl; exact h1 hc)
  · intro c hc
    exact key c (List.mem_of_getLast? hc) (by rintro rfl; exact h2 hc)

theorem prepared_some (s : Str) (u : Rec) : prepared s (some u) = removeTabNewline s := rfl

/-! ### Spans -/

theorem takeWhile_append {p : Nat → Bool} {a b : Str} (ha : ∀ c ∈ a, p c = true)
    (hb : ∀ c, b.head? = some c → p c = false) : (a ++ b).takeWhile p = a := by
  rw [List.takeWhile_append_of_pos ha]
  cases b with
  | nil => simp
  | cons c cs => simp [List.takeWhile, hb c rfl]

theorem dropWhile_append {p : Nat → Bool} {a b : Str} (ha : ∀ c ∈ a, p c = true)
    (hb : ∀ c, b.head? = some c → p c = false) : (a ++ b).dropWhile p = b := by
  rw [List.dropWhile_append_of_pos ha, dropWhile_none hb]

/-! ### Fixed points of the encoders -/

theorem quoteSafe_of {safe : Nat → Bool} {c : Nat} (h : safe c = true) (hc : c < 128) : quoteSafe safe c = true := by
  simp [quoteSafe, h, hc]

theorem encode_fixed {safe : Nat → Bool} {s : Str} (h : ∀ c ∈ s, safe c = true ∧ c < 128) :
    utf8PercentEncode s safe = s := utf8PercentEncode_safe fun c hc => quoteSafe_of (h c hc).1 (h c hc).2

theorem userinfo_fixed {s : Str} (h : ∀ c ∈ s, safeUserinfo c = true) : utf8PercentEncode s safeUserinfo = s :=
  encode_fixed fun c hc => ⟨h c hc, by have := safeUserinfo_print (h c hc); omega⟩

theorem path_fixed {s : Str} (h : ∀ c ∈ s, safePath c = true) : utf8PercentEncode s safePath = s :=
  encode_fixed fun c hc => ⟨h c hc, by have := safePath_print (h c hc); omega⟩

theorem fragment_fixed {s : Str} (h : ∀ c ∈ s, safeFragment c = true) : utf8PercentEncode s safeFragment = s :=
  encode_fixed fun c hc => ⟨h c hc, by have := safeFragment_print (h c hc); omega⟩

theorem query_fixed {u : Rec} {s : Str} (h : ∀ c ∈ s, querySafe u.isSpecial c = true) :
    encodeQuery .utf8 u s = s := by
  unfold encodeQuery
  rw [ite_self]
  exact encode_fixed fun c hc => ⟨h c hc, by have := querySafe_print (h c hc); omega⟩

theorem opaque_fixed {s : Str} (h : ∀ c ∈ s, safeC0 c = true) :
    (s.flatMap fun c => utf8PercentEncode [c] safeC0) = s := by
  induction s with
  | nil => rfl
  | cons c cs ih =>
    rw [List.flatMap_cons, ih fun x hx => h x (by simp [hx])]
    rw [encode_fixed (s := [c])]
    · rfl
    · intro x hx
      simp only [List.mem_cons, List.not_mem_nil, or_false] at hx
      subst hx
      have hc := h x (by simp)
      exact ⟨hc, by have := safeC0_print hc; omega⟩

/-! ### Query and fragment -/

/-- the part of a serialization from "?" or "#" on -/
def tailStr (q f : Option Str) : Str :=
  (match q with
    | some q => c!"?" :: q
    | none => []) ++
  (match f with
    | some f => c!"#" :: f
    | none => [])

theorem tailStr_head (q f : Option Str) : ∀ c, (tailStr q f).head? = some c → c = 63 ∨ c = 35 := by
  intro c hc
  unfold tailStr at hc
  cases q with
  | some q => simp at hc; omega
  | none =>
    cases f with
    | some f => simp at hc; omega
    | none => simp at hc

theorem eval_fragment {e : Encoding} {base : Option Rec} {ov : Option PState} {url : Rec} {f : Str}
    (hf : ∀ c ∈ f, safeFragment c = true) :
    eval env e base ov .fragment f { url with fragment := some [] } = (.ok (), { url with fragment := some f }) := by
  rw [eval_step _ _ _ _ (by decide)]
  show (sFragment f { url with fragment := some [] }).andThen env e base ov = _
  unfold sFragment
  cases f with
  | nil => exact eval_eof ..
  | cons c cs =>
    dsimp only [List.isEmpty_cons]
    rw [if_neg (by simp), fragment_fixed hf]
    exact eval_eof ..

theorem eval_query {base : Option Rec} {url : Rec} {q : Str} {f : Option Str} (hfr : url.fragment = none)
    (hq : ∀ c ∈ q, querySafe url.isSpecial c = true) (hf : ∀ t, f = some t → ∀ c ∈ t, safeFragment c = true) :
    eval env .utf8 base none .query (q ++ tailStr none f) { url with query := some [] } =
      (.ok (), { url with query := some q, fragment := f }) := by
  have hnh : ∀ c ∈ q, notHash c = true := by
    intro c hc
    have := querySafe_spec (hq c hc)
    simp only [notHash, Bool.not_eq_true', decide_eq_false_iff_not]
    exact this.2.2.1
  have hhd : ∀ c, (tailStr none f).head? = some c → notHash c = false := by
    intro c hc
    cases f with
    | none => simp [tailStr] at hc
    | some f =>
      simp [tailStr] at hc
      subst hc; decide
  rw [eval_step _ _ _ _ (by decide)]
  show (sQuery .utf8 none (q ++ tailStr none f) { url with query := some [] }).andThen env .utf8 base none = _
  unfold sQuery queryText queryRest
  dsimp only [Option.isSome]
  simp only [Bool.false_eq_true, if_false]
  rw [takeWhile_append hnh hhd, dropWhile_append hnh hhd]
  cases f with
  | none =>
    have e1 : tailStr none none = [] := rfl
    simp only [e1, List.isEmpty_nil, Bool.and_true, if_true, List.tail_nil]
    split
    · rename_i hq0
      rw [List.isEmpty_iff] at hq0
      subst hq0
      show eval env .utf8 base none .fragment [] _ = _
      rw [eval_step _ _ _ _ (by decide)]
      show eval env .utf8 base none .eof _ _ = _
      rw [eval_eof, ← hfr]
    · show eval env .utf8 base none .fragment [] _ = _
      rw [eval_step _ _ _ _ (by decide)]
      show eval env .utf8 base none .eof _ _ = _
      rw [eval_eof, List.nil_append, query_fixed (by exact hq), ← hfr]
  | some f =>
    have e1 : tailStr none (some f) = 35 :: f := rfl
    simp only [e1, List.isEmpty_cons, Bool.and_false, Bool.false_eq_true, if_false, List.tail_cons]
    show eval env .utf8 base none .fragment f _ = _
    rw [List.nil_append, query_fixed (by exact hq)]
    exact eval_fragment (url := { url with query := some q }) (hf f rfl)

/-- the states behind the path -/
theorem eval_afterPath {base : Option Rec} {url : Rec} {q f : Option Str} {st : PState} {u : Rec}
    (hst : eval env .utf8 base none st [] url = (.ok (), url))
    (hqn : url.query = none) (hfr : url.fragment = none)
    (hq : ∀ t, q = some t → ∀ c ∈ t, querySafe url.isSpecial c = true)
    (hf : ∀ t, f = some t → ∀ c ∈ t, safeFragment c = true)
    (hu : u = { url with query := q, fragment := f }) :
    (afterPath st (tailStr q f) url).andThen env .utf8 base none = (.ok (), u) := by
  subst hu
  cases q with
  | some q =>
    have e1 : tailStr (some q) f = 63 :: (q ++ tailStr none f) := by simp [tailStr]
    rw [e1]
    show eval env .utf8 base none .query _ _ = _
    exact eval_query hfr (hq q rfl) hf
  | none =>
    cases f with
    | none =>
      show eval env .utf8 base none st [] url = _
      rw [hst]; congr 1; cases url; simp_all
    | some f =>
      show eval env .utf8 base none .fragment f _ = _
      rw [eval_fragment (hf f rfl), ← hqn]

/-! ### Paths -/

theorem isPathSep_slash (sp : Bool) : isPathSep sp 47 = true := by cases sp <;> rfl

theorem pathPieces_append {sp : Bool} {s : Str} (hs : ∀ c ∈ s, isPathSep sp c = false) (t : Str) :
    pathPieces sp (s ++ 47 :: t) = s :: pathPieces sp t := by
  induction s with
  | nil => simp [pathPieces, isPathSep_slash]
  | cons c cs ih =>
    rw [List.cons_append]
    conv => lhs; unfold pathPieces
    rw [hs c (by simp), ih fun x hx => hs x (by simp [hx])]
    rfl

theorem pathPieces_single {sp : Bool} {s : Str} (hs : ∀ c ∈ s, isPathSep sp c = false) : pathPieces sp s = [s] := by
  induction s with
  | nil => rfl
  | cons c cs ih =>
    unfold pathPieces
    rw [hs c (by simp), ih fun x hx => hs x (by simp [hx])]
    rfl

theorem pathPieces_segs {sp : Bool} {s : Str} {segs : List Str}
    (h : ∀ x ∈ s :: segs, ∀ c ∈ x, isPathSep sp c = false) :
    pathPieces sp (s ++ serializePath (.list segs)) = s :: segs := by
  induction segs generalizing s with
  | nil =>
    show pathPieces sp (s ++ []) = _
    rw [List.append_nil, pathPieces_single (h s (by simp))]
  | cons x xs ih =>
    have : serializePath (.list (x :: xs)) = 47 :: (x ++ serializePath (.list xs)) := by
      simp [serializePath]
    rw [this, pathPieces_append (h s (by simp)), ih fun y hy => h y (List.mem_cons_of_mem _ hy)]

theorem addSegment_id {sc : Str} {p : List Str} {s : Str} {b : Bool} (hs : SegOK (isSpecialScheme sc) s)
    (hd : sc = u!"file" → p = [] → isWindowsDriveLetter s = true → isNormalizedWindowsDriveLetter s = true) :
    addSegment sc p s b = p ++ [s] := by
  unfold addSegment
  dsimp only
  rw [path_fixed fun c hc => (hs.chars c hc).1, hs.double, hs.single]
  simp only [Bool.false_eq_true, if_false]
  split
  · rename_i h
    simp only [Bool.and_eq_true, beq_iff_eq, List.isEmpty_iff] at h
    obtain ⟨⟨h1, h2⟩, h3⟩ := h
    have := hd h1 h2 h3
    unfold isNormalizedWindowsDriveLetter isWindowsDriveLetter at this
    split at this
    · simp at this
      obtain ⟨_, rfl⟩ := this
      rfl
    · simp at this
  · rfl

theorem addPieces_id {sc : Str} (ps : List Str) : ∀ {p : List Str}, SegsOK true sc (p ++ ps) →
    addPieces sc p ps = p ++ ps := by
  induction ps with
  | nil => intro p _; simp [addPieces]
  | cons s ps ih =>
    intro p h
    have hadd : ∀ b, addSegment sc p s b = p ++ [s] := by
      intro b
      refine addSegment_id (h.segs s (by simp)) ?_
      rintro hf rfl hw
      exact h.drive rfl hf s rfl hw
    cases ps with
    | nil => unfold addPieces; exact hadd false
    | cons q qs =>
      unfold addPieces
      rw [hadd true, ih (by rw [List.append_assoc]; exact h), List.append_assoc]; rfl

theorem eval_opaquePath_nil {e : Encoding} {base : Option Rec} {ov : Option PState} (url : Rec) :
    eval env e base ov .opaquePath [] url = (.ok (), url) := by
  rw [eval_step _ _ _ _ (by decide)]
  show (sOpaquePath [] url).andThen env e base ov = _
  unfold sOpaquePath
  simp only [List.takeWhile_nil, List.dropWhile_nil, List.flatMap_nil, addText_nil]
  exact eval_eof ..

theorem notQF_seg {sp : Bool} {s : Str} (hs : SegOK sp s) : ∀ c ∈ s, notQF c = true := by
  intro c hc
  have := (hs.chars c hc).1
  safe_simp at this
  simp only [notQF, Bool.not_eq_true', Bool.or_eq_false_iff, decide_eq_false_iff_not]
  omega

theorem notQF_tail (q f : Option Str) : ∀ c, (tailStr q f).head? = some c → notQF c = false := by
  intro c hc
  rcases tailStr_head q f c hc with rfl | rfl <;> decide

theorem notQF_segs {sp : Bool} {segs : List Str} (h : ∀ s ∈ segs, SegOK sp s) :
    ∀ c ∈ serializePath (.list segs), notQF c = true := by
  intro c hc
  simp only [serializePath, List.mem_flatMap] at hc
  obtain ⟨s, hm, hc⟩ := hc
  rcases List.mem_cons.1 hc with rfl | hc
  · decide
  · exact notQF_seg (h s hm) c hc

/-- what holds of the parts behind the authority -/
structure PartsOK (u : Rec) : Prop where
  segs : ∀ p, u.path = .list p → SegsOK true u.scheme p
  query : QueryWF u
  frag : FragWF u

theorem WF.parts {u : Rec} (h : WF true P u) : PartsOK u := by
  refine ⟨fun p hp => ?_, h.query, h.frag⟩
  have := h.path
  unfold PathWF at this
  rw [hp] at this
  exact this.1

/-- a record without path, query and fragment -/
def Rec.head (u : Rec) : Rec := { u with path := .list [], query := none, fragment := none }

/-- the path state on the text of the pieces `t`, which give the path `p` -/
theorem eval_path {base : Option Rec} {u : Rec} (hw : PartsOK u) {p : List Str} (hp : u.path = .list p) {t : Str}
    (ht : ∀ c ∈ t, notQF c = true) (hadd : addPieces u.scheme [] (pathPieces u.isSpecial t) = p) :
    eval env .utf8 base none .path (t ++ tailStr u.query u.fragment) u.head = (.ok (), u) := by
  rw [eval_step _ _ _ _ (by decide)]
  show (sPath none (t ++ tailStr u.query u.fragment) u.head).andThen env .utf8 base none = _
  unfold sPath Rec.head pathRest pathText
  dsimp only [Option.isSome]
  rw [if_neg (by simp), if_neg (by simp), takeWhile_append ht (notQF_tail _ _), dropWhile_append ht (notQF_tail _ _)]
  have : addPieces u.scheme []
      (pathPieces ({ u with path := .list [], query := none, fragment := none } : Rec).isSpecial t) = p := hadd
  rw [this, ← hp]
  exact eval_afterPath (eval_opaquePath_nil _) rfl rfl (fun t ht => hw.query t ht) (fun t ht => hw.frag t ht) rfl

theorem eval_path_segs {base : Option Rec} {u : Rec} (hw : PartsOK u) {s : Str} {ss : List Str}
    (hp : u.path = .list (s :: ss)) :
    eval env .utf8 base none .path (s ++ serializePath (.list ss) ++ tailStr u.query u.fragment) u.head =
      (.ok (), u) := by
  have hs := hw.segs _ hp
  refine eval_path hw hp ?_ ?_
  · intro c hc
    rcases List.mem_append.1 hc with hc | hc
    · exact notQF_seg (hs.segs s (by simp)) c hc
    · exact notQF_segs (fun x hx => hs.segs x (by simp [hx])) c hc
  · rw [pathPieces_segs (sp := u.isSpecial) fun x hx c hc => ((hs.segs x hx).chars c hc).2]
    exact addPieces_id _ hs

/-- the path start state on the text behind an authority -/
theorem eval_pathStart {base : Option Rec} {u : Rec} (hw : PartsOK u) {p : List Str} (hp : u.path = .list p)
    (hne : u.isSpecial = true → p ≠ []) :
    eval env .utf8 base none .pathStart (serializePath u.path ++ tailStr u.query u.fragment) u.head = (.ok (), u) := by
  rw [eval_step _ _ _ _ (by decide), hp]
  show (sPathStart none _ u.head).andThen env .utf8 base none = _
  have hsp : u.head.isSpecial = u.isSpecial := rfl
  cases p with
  | cons s ss =>
    have : serializePath (.list (s :: ss)) ++ tailStr u.query u.fragment =
        47 :: (s ++ serializePath (.list ss) ++ tailStr u.query u.fragment) := by
      simp [serializePath]
    rw [this]
    unfold sPathStart
    dsimp only
    rw [if_pos (isPathSep_slash _)]
    exact eval_path_segs hw hp
  | nil =>
    have hns : u.isSpecial = false := by
      cases h : u.isSpecial
      · rfl
      · exact absurd rfl (hne h)
    show (sPathStart none (tailStr u.query u.fragment) u.head).andThen env .utf8 base none = _
    have h0 : ∀ url : Rec, eval env .utf8 base none .eof [] url = (.ok (), url) := fun _ => eval_eof ..
    have key := eval_afterPath (env := env) (base := base) (u := u) (url := u.head) (st := .eof)
      (q := u.query) (f := u.fragment) (h0 _) rfl rfl
      (fun t ht => hw.query t ht) (fun t ht => hw.frag t ht) (by
        have : u.head = { u with query := none, fragment := none } := by unfold Rec.head; rw [← hp]
        rw [this])
    rw [← key]
    congr 1
    unfold sPathStart afterPath
    have := tailStr_head u.query u.fragment
    split
    · rename_i heq
      simp [hsp, hns]
    · rename_i c cs heq
      have hc := this c (by rw [heq]; rfl)
      dsimp only [Option.isNone]
      rw [hsp, hns]
      rcases hc with rfl | rfl
      · simp [isPathSep]
      · simp [isPathSep]

end Urlstd
