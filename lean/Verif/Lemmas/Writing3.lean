/-
Valid URL strings are parsed without a validation error: the states that decide what kind of reference the input is.
-/
import Verif.Lemmas.Writing2

set_option linter.unusedSimpArgs false
set_option linter.unusedVariables false

namespace Urlstd

open Spec (URLUnits QueryPart FragmentPart PathRelative PathAbsolute PathPart PortPart PortString Letter PathAbsoluteNonWindows
  PathRelativeSchemeless SchemeRelativeSpecial SchemeRelativeFile SchemeRelative OpaqueHostAndPort RelativeOther RelativeURL AbsoluteURL
  ValidURL HasScheme SchemeText)

section
variable {env : Env} {e : Encoding} {base : Option Rec}

/-- what a host of a special URL needs -/
structure HostsOK (env : Env) (vh vo : Str → Prop) : Prop where
  special : ∀ h, vh h → h ≠ [] ∧ FineHost env false h ∧ c!"|" ∉ h
  other : ∀ h, vo h → h ≠ [] ∧ FineHost env true h

theorem head_tail {q f : Str} (hq : QueryPart q) (hf : FragmentPart f) {c : Nat} {t : Str} (h : q ++ f = c :: t) : c = c!"?" ∨ c = c!"#" := by
  rcases hq with rfl | ⟨q, rfl, hq⟩
  · rcases hf with rfl | ⟨f, rfl, hf⟩
    · cases h
    · cases h; simp
  · cases h; simp

/-! ### Relative references -/

theorem silent_relativeSlash_path {b : Rec} {p q f : Str} (hp : PathRelative p) (hq : QueryPart q) (hf : FragmentPart f) {url : Rec} {segs : List Str}
    (hu : url.path = .list segs) : Silent env e (some b) .relativeSlash (p ++ (q ++ f)) url url.scheme := by
  refine silent_step (st' := .path) (rest' := p ++ (q ++ f))
    (url' := { url with username := b.username, password := b.password, host := b.host, port := b.port }) (by decide)
    (fun s i hd => ⟨i, ?_, hd⟩) (silent_path (pathRelative_units hp) hq hf hu)
  have hh : ∀ c, (p ++ (q ++ f)).head? = some c → c ≠ c!"/" ∧ c ≠ c!"\\" := by
    intro c hc
    cases p with
    | nil =>
      cases ht : q ++ f with
      | nil => rw [List.nil_append, ht] at hc; cases hc
      | cons x t =>
        rw [List.nil_append, ht] at hc
        cases hc
        rcases head_tail hq hf ht with rfl | rfl <;> decide
    | cons x p =>
      cases hc
      exact ⟨fun h => hp.2 (by rw [h]; rfl), fun h => (pathRelative_chars hp).2.2 (by rw [h]; simp)⟩
  show parseRelativeSlash s i (some b) url = _
  unfold parseRelativeSlash
  dsimp only
  rw [hd, if_neg, if_neg, if_neg]
  · intro h; exact (hh _ h).1 rfl
  · simp only [Bool.and_eq_true, decide_eq_true_eq]; intro h; exact (hh _ h.2).1 rfl
  · simp only [Bool.and_eq_true, decide_eq_true_eq]; intro h; exact (hh _ h.2).2 rfl

/-- "//" behind a special base -/
theorem silent_relativeSlash_special {h port p q f : Str} (hh : FineHost env false h) (hpo : PortPart port) (hp : PathPart p) (hq : QueryPart q)
    (hf : FragmentPart f) (hl : env.maxStrDigits = 0 ∨ port.length ≤ env.maxStrDigits) {url : Rec} {segs : List Str}
    (hu : url.path = .list segs) (hm : url.isSpecial = true) (hne : h ≠ []) :
    Silent env e base .relativeSlash (c!"/" :: (h ++ (port ++ (p ++ (q ++ f))))) url url.scheme := by
  refine silent_step (st' := .specialAuthorityIgnoreSlashes) (url' := url) (by decide)
    (fun s i hd => ⟨i + 1, ?_, drop_after hd⟩) (silent_ignoreSlashes hh hpo hp hq hf hl hu hm hne)
  show parseRelativeSlash s i base url = _
  unfold parseRelativeSlash
  dsimp only
  rw [hd, List.head?_cons, if_neg (by simp), if_pos (by simp [hm])]

/-- "//" behind another base -/
theorem silent_relativeSlash_other {h port p q f : Str} (hh : FineHost env true h) (hpo : PortPart port) (hp : PathPart p) (hq : QueryPart q)
    (hf : FragmentPart f) (hl : env.maxStrDigits = 0 ∨ port.length ≤ env.maxStrDigits) {url : Rec} {segs : List Str}
    (hu : url.path = .list segs) (hm : url.isSpecial = false) (hne : h = [] → port = []) :
    Silent env e base .relativeSlash (c!"/" :: (h ++ (port ++ (p ++ (q ++ f))))) url url.scheme := by
  refine silent_step (st' := .authority) (url' := url) (by decide)
    (fun s i hd => ⟨i + 1, ?_, drop_after hd⟩) (silent_authority hh hpo hp hq hf hl hu (by rw [hm]; rfl) (fun h => ⟨rfl, hne h⟩))
  show parseRelativeSlash s i base url = _
  unfold parseRelativeSlash
  dsimp only
  rw [hd, List.head?_cons, if_neg (by simp [hm]), if_neg (by simp [hm]), if_pos rfl]

theorem silent_relative_slash {b : Rec} {rest : Str} {url : Rec} {sch : Str} (hb : b.scheme ≠ u!"file")
    (h : Silent env e (some b) .relativeSlash rest { url with scheme := b.scheme } sch) :
    Silent env e (some b) .relative (c!"/" :: rest) url sch := by
  refine silent_step (by decide) (fun s i hd => ⟨i + 1, ?_, drop_after hd⟩) h
  show parseRelative s i (some b) url = _
  unfold parseRelative
  dsimp only
  rw [if_neg hb, hd]
  dsimp only
  rw [if_pos rfl]

theorem silent_relative_path {b : Rec} {p q f : Str} (hb : b.scheme ≠ u!"file") (hp : PathRelative p) (hq : QueryPart q) (hf : FragmentPart f)
    {url : Rec} {segs : List Str} (hu : b.path = .list segs) : Silent env e (some b) .relative (p ++ (q ++ f)) url b.scheme := by
  cases p with
  | nil =>
    rcases hq with rfl | ⟨q, rfl, hq⟩
    · rcases hf with rfl | ⟨f, rfl, hf⟩
      · refine silent_step (st' := .eof) (rest' := []) (url' := { url with scheme := b.scheme, username := b.username, password := b.password, host := b.host, port := b.port, path := b.path, query := b.query }) (by decide)
          (fun s i hd => ⟨i, ?_, hd⟩) (silent_eof _ _)
        show parseRelative s i (some b) url = _
        unfold parseRelative
        dsimp only
        rw [if_neg hb, hd]
        rfl
      · refine silent_step (st' := .fragment) (rest' := f) (url' := { url with scheme := b.scheme, username := b.username, password := b.password, host := b.host, port := b.port, path := b.path, query := b.query, fragment := some [] }) (by decide)
          (fun s i hd => ⟨i + 1, ?_, drop_after hd⟩) (silent_fragment hf (by simp))
        show parseRelative s i (some b) url = _
        unfold parseRelative
        dsimp only
        rw [if_neg hb, hd, List.nil_append, List.nil_append]
        dsimp only
        rw [if_neg (by decide), if_neg (by simp), if_neg (by decide), if_pos rfl]
    · refine silent_step (st' := .query) (rest' := q ++ f) (url' := { url with scheme := b.scheme, username := b.username, password := b.password, host := b.host, port := b.port, path := b.path, query := some [] }) (by decide)
        (fun s i hd => ⟨i + 1, ?_, drop_after hd⟩) (silent_query hq hf (by simp))
      show parseRelative s i (some b) url = _
      unfold parseRelative
      dsimp only
      rw [if_neg hb, hd, List.nil_append, List.cons_append]
      dsimp only
      rw [if_neg (by decide), if_neg (by simp), if_pos rfl]
  | cons c p =>
    have hch := pathRelative_chars hp
    have c1 : c ≠ c!"/" := fun h => hp.2 (by rw [h]; rfl)
    have c2 : c ≠ c!"\\" := fun h => hch.2.2 (by rw [h]; simp)
    have c3 : c ≠ c!"?" := fun h => hch.1 (by rw [h]; simp)
    have c4 : c ≠ c!"#" := fun h => hch.2.1 (by rw [h]; simp)
    refine silent_step (st' := .path) (rest' := (c :: p) ++ (q ++ f)) (url' := { url with scheme := b.scheme, username := b.username, password := b.password, host := b.host, port := b.port, path := .list (shortenPath b.scheme segs), query := none }) (by decide)
        (fun s i hd => ⟨i, ?_, hd⟩) (silent_path (pathRelative_units hp) hq hf rfl)
    show parseRelative s i (some b) url = _
    unfold parseRelative
    dsimp only
    rw [if_neg hb, hd, List.cons_append]
    dsimp only
    rw [if_neg c1, if_neg (by simp [c2]), if_neg c3, if_neg c4]
    unfold shortenRec
    dsimp only
    rw [hu]

/-! ### The file state -/

theorem silent_file_slash {rest : Str} {url : Rec} {sch : Str}
    (h : Silent env e base .fileSlash rest { url with scheme := u!"file", host := some (.str []) } sch) :
    Silent env e base .file (c!"/" :: rest) url sch := by
  refine silent_step (by decide) (fun s i hd => ⟨i + 1, ?_, drop_after hd⟩) h
  show parseFile s i base url = _
  unfold parseFile
  dsimp only
  rw [hd]
  dsimp only
  rw [if_pos rfl]

theorem no_drive {p q f : Str} (hp : PathRelativeSchemeless p) (hq : QueryPart q) (hf : FragmentPart f) :
    startsWithWindowsDriveLetter (p ++ (q ++ f)) = false := by
  have key : ∀ t : Str, startsWithWindowsDriveLetter t = true → ∃ a b r, t = a :: b :: r ∧ isAlpha a = true ∧ (b = 58 ∨ b = 124) := by
    intro t ht
    unfold startsWithWindowsDriveLetter at ht
    split at ht
    · rename_i a b r
      rw [Bool.and_eq_true] at ht
      obtain ⟨x, y, hxy, h1, h2⟩ := drive_shape ht.1
      cases hxy
      exact ⟨_, _, _, rfl, h1, h2⟩
    · cases ht
  cases hw : startsWithWindowsDriveLetter (p ++ (q ++ f)) with
  | false => rfl
  | true =>
    obtain ⟨a, b, r, ht, ha, hb⟩ := key _ hw
    cases p with
    | nil =>
      rcases head_tail hq hf ht with rfl | rfl <;> revert ha <;> decide
    | cons x p =>
      cases p with
      | nil =>
        rw [List.cons_append, List.nil_append, List.cons.injEq] at ht
        rcases head_tail hq hf ht.2 with rfl | rfl <;> rcases hb with h | h <;> cases h
      | cons y p =>
        simp only [List.cons_append, List.cons.injEq] at ht
        obtain ⟨rfl, rfl, -⟩ := ht
        rcases hb with rfl | rfl
        · exact absurd ⟨[x], p, ⟨x, [], rfl, isAlpha_iff.1 ha, by simp⟩, rfl⟩ hp.2
        · exact absurd (by simp) (units_not (c := 124) (pathRelative_units hp.1) (by decide) (by decide))

theorem silent_file_path {b : Rec} {p q f : Str} (hb : b.scheme = u!"file") (hp : PathRelativeSchemeless p) (hq : QueryPart q)
    (hf : FragmentPart f) {url : Rec} {segs : List Str} (hu : b.path = .list segs) :
    Silent env e (some b) .file (p ++ (q ++ f)) url u!"file" := by
  have hw := no_drive hp hq hf
  have hp := hp.1
  cases p with
  | nil =>
    rcases hq with rfl | ⟨q, rfl, hq⟩
    · rcases hf with rfl | ⟨f, rfl, hf⟩
      · refine silent_step (st' := .path) (rest' := []) (url' := { url with scheme := u!"file", host := b.host, path := b.path, query := b.query }) (by decide)
          (fun s i hd => ⟨i, ?_, hd⟩) (silent_path (p := []) (q := []) (f := []) .nil (.inl rfl) (.inl rfl) hu)
        show parseFile s i (some b) url = _
        unfold parseFile
        dsimp only
        rw [if_pos hb, hd]
        rfl
      · refine silent_step (st' := .fragment) (rest' := f) (url' := { url with scheme := u!"file", host := b.host, path := b.path, query := b.query, fragment := some [] }) (by decide)
          (fun s i hd => ⟨i + 1, ?_, drop_after hd⟩) (silent_fragment hf (by simp))
        show parseFile s i (some b) url = _
        unfold parseFile
        dsimp only
        rw [if_pos hb, hd, List.nil_append, List.nil_append]
        dsimp only
        rw [if_neg (by decide), if_neg (by decide), if_neg (by decide), if_pos rfl]
    · refine silent_step (st' := .query) (rest' := q ++ f) (url' := { url with scheme := u!"file", host := b.host, path := b.path, query := some [] }) (by decide)
          (fun s i hd => ⟨i + 1, ?_, drop_after hd⟩) (silent_query hq hf (by simp))
      show parseFile s i (some b) url = _
      unfold parseFile
      dsimp only
      rw [if_pos hb, hd, List.nil_append, List.cons_append]
      dsimp only
      rw [if_neg (by decide), if_neg (by decide), if_pos rfl]
  | cons c p =>
    have hch := pathRelative_chars hp
    have c1 : c ≠ c!"/" := fun h => hp.2 (by rw [h]; rfl)
    have c2 : c ≠ c!"\\" := fun h => hch.2.2 (by rw [h]; simp)
    have c3 : c ≠ c!"?" := fun h => hch.1 (by rw [h]; simp)
    have c4 : c ≠ c!"#" := fun h => hch.2.1 (by rw [h]; simp)
    refine silent_step (st' := .path) (rest' := (c :: p) ++ (q ++ f)) (url' := { url with scheme := u!"file", host := b.host, path := .list (shortenPath u!"file" segs), query := none }) (by decide)
        (fun s i hd => ⟨i, ?_, hd⟩) (silent_path (pathRelative_units hp) hq hf rfl)
    show parseFile s i (some b) url = _
    unfold parseFile
    dsimp only
    rw [if_pos hb, hd]
    rw [List.cons_append] at hw ⊢
    dsimp only
    rw [if_neg c1, if_neg c2, if_neg c3, if_neg c4, hw]
    unfold shortenRec
    dsimp only
    rw [hu]
    rfl

/-- "//host/path" of a file URL -/
theorem silent_file_relative {vh vo : Str → Prop} (hv : HostsOK env vh vo) {x q f : Str} (hx : SchemeRelativeFile vh x) (hq : QueryPart q)
    (hf : FragmentPart f) {url : Rec} {segs : List Str} (hu : url.path = .list segs) :
    Silent env e base .file (x ++ (q ++ f)) url u!"file" := by
  have sp : ∀ u : Rec, u.scheme = u!"file" → u.isSpecial = true := by
    intro u h
    unfold Rec.isSpecial
    rw [h]
    decide
  rcases hx with ⟨host, path, rfl, hh, hpath⟩ | ⟨path, rfl, hpath⟩
  · have e1 : u!"//" ++ host ++ path ++ (q ++ f) = c!"/" :: c!"/" :: (host ++ (path ++ (q ++ f))) := by simp
    rw [e1]
    have hpath : PathPart path := by
      rcases hpath with h | h
      · exact .inl h
      · exact .inr h.1
    exact silent_file_slash (silent_fileSlash_host (.inr ⟨(hv.special _ hh).2.1, (hv.special _ hh).2.2⟩) hpath hq hf hu (sp _ rfl))
  · have e1 : u!"//" ++ path ++ (q ++ f) = c!"/" :: c!"/" :: ([] ++ (path ++ (q ++ f))) := by simp
    rw [e1]
    exact silent_file_slash (silent_fileSlash_host (.inl rfl) (.inr hpath) hq hf hu (sp _ rfl))

/-! ### The start -/

theorem schemeScan_some (sc rest : Str) : ∀ (i : Nat) (buf : Str) (h : ∀ c ∈ sc, isSchemeChar c = true),
    schemeScan (sc ++ c!":" :: rest) i buf = some (buf ++ sc, i + sc.length + 1) := by
  induction sc with
  | nil =>
    intro i buf h
    rw [List.nil_append]
    unfold schemeScan
    rw [if_neg (by decide), if_pos rfl]
    simp
  | cons c sc ih =>
    intro i buf h
    rw [List.cons_append]
    unfold schemeScan
    rw [if_pos (h c (by simp)), ih _ _ (fun x hx => h x (by simp [hx]))]
    simp
    omega

theorem schemeScan_none {t : Str} : ∀ (i : Nat) (buf : Str) (h : ∀ a r, t = a ++ c!":" :: r → ¬ ∀ c ∈ a, isSchemeChar c = true),
    schemeScan t i buf = none := by
  induction t with
  | nil => intro i buf h; rfl
  | cons c t ih =>
    intro i buf h
    unfold schemeScan
    by_cases hc : isSchemeChar c = true
    · rw [if_pos hc]
      apply ih
      intro a r ht hall
      refine h (c :: a) r (by rw [ht]; rfl) ?_
      intro x hx
      rcases List.mem_cons.1 hx with rfl | hx
      · exact hc
      · exact hall x hx
    · rw [if_neg hc, if_neg]
      rintro rfl
      exact h [] t rfl (by simp)

theorem schemeChar_iff (c : Nat) : isSchemeChar c = true ↔ (Letter c ∨ Spec.Digit c ∨ c = c!"+" ∨ c = c!"-" ∨ c = c!".") := by
  unfold isSchemeChar
  rw [Bool.or_eq_true, ← letter_digit_alnum]
  simp [or_assoc]

theorem silent_noScheme {s : Str} {sch : Str} (hn : ¬ HasScheme s) (h : Silent env e base .noScheme s {} sch) :
    Silent env e base .schemeStart s {} sch := by
  refine silent_step (st' := .noScheme) (url' := {}) (by decide) (fun t i hd => ⟨i, ?_, hd⟩) h
  show parseScheme t i base {} none = _
  unfold parseScheme
  dsimp only
  rw [hd]
  cases s with
  | nil => rfl
  | cons c cs =>
    dsimp only
    by_cases ha : isAlpha c = true
    · rw [if_neg (by simp [ha]), schemeScan_none]
      · rfl
      · intro a r hr hall
        refine hn ⟨c :: a, r, ⟨c, a, rfl, isAlpha_iff.1 ha, fun x hx => (schemeChar_iff x).1 (hall x hx)⟩, ?_⟩
        rw [hr]
        simp
    · rw [if_pos (by simp [ha])]
      rfl

theorem silent_noScheme_relative {b : Rec} {s : Str} {sch : Str} {segs : List Str} (hp : b.path = .list segs)
    (h : Silent env e (some b) (if b.scheme = u!"file" then .file else .relative) s {} sch) : Silent env e (some b) .noScheme s {} sch := by
  refine silent_step (url' := {}) (by split <;> decide) (fun t i hd => ⟨i, ?_, hd⟩) h
  show parseNoScheme t i (some b) {} = _
  unfold parseNoScheme
  have ho : b.hasOpaquePath = false := by unfold Rec.hasOpaquePath; rw [hp]
  dsimp only
  rw [ho, if_neg (by simp), if_neg (by simp)]
  by_cases hf : b.scheme = u!"file"
  · rw [if_neg (by simpa using hf), if_pos hf]
  · rw [if_pos hf, if_neg hf]

/-- the state after a scheme -/
theorem silent_scheme {sc rest : Str} {sch : Str} (hsc : SchemeText sc) {st' : PState} {rest' : Str} {u : Rec}
    (hr : st'.rank < 20)
    (hstep : ∀ (s : Str) (i : Nat), s.drop i = rest → ∃ i', s.drop i' = rest' ∧
      (let url : Rec := { scheme := Spec.toLower sc }
        if url.scheme = u!"file" then
          Out.to .file i url (if rest.take 2 = u!"//" then [] else [.ev .specialSchemeMissingFollowingSolidus])
        else if url.isSpecial then
          if (match base with | some b => b.scheme == url.scheme | none => false) then
            Out.to .specialRelativeOrAuthority i url
          else .to .specialAuthoritySlashes i url
        else if rest.head? = some c!"/" then Out.to .pathOrAuthority (i + 1) url
        else .to .opaquePath i { url with path := .opaque [] }) = .to st' i' u [])
    (h : Silent env e base st' rest' u sch) : Silent env e base .schemeStart (sc ++ c!":" :: rest) {} sch := by
  obtain ⟨c, cs, rfl, hc, hcs⟩ := hsc
  refine silent_step hr (fun t i hd => ?_) h
  have hd2 : t.drop (i + 1 + cs.length + 1) = rest := by
    rw [List.cons_append] at hd
    exact drop_after (drop_behind (drop_after hd))
  obtain ⟨i', h1, h2⟩ := hstep t (i + 1 + cs.length + 1) hd2
  refine ⟨i', ?_, h1⟩
  rw [← h2]
  show parseScheme t i base {} none = _
  unfold parseScheme
  dsimp only
  rw [hd, List.cons_append]
  dsimp only
  rw [if_neg (by rw [isAlpha_iff.2 hc]; simp), schemeScan_some cs rest _ _ (fun x hx => (schemeChar_iff x).2 (hcs x hx))]
  dsimp only
  rw [if_neg (by simp), hd2, ← toLower_eq_lower, List.cons_append, List.nil_append]
  cases base <;> rfl

theorem silent_special_slashes {st : PState} (hst : st = .specialRelativeOrAuthority ∨ st = .specialAuthoritySlashes) {rest : Str} {url : Rec}
    {sch : Str} (h : Silent env e base .specialAuthorityIgnoreSlashes rest url sch) :
    Silent env e base st (c!"/" :: c!"/" :: rest) url sch := by
  have hd2 : ∀ (s : Str) i, s.drop i = c!"/" :: c!"/" :: rest → s.drop (i + 2) = rest := by
    intro s i hd
    rw [← List.drop_drop, hd]
    rfl
  rcases hst with rfl | rfl
  · refine silent_step (by decide) (fun s i hd => ⟨i + 2, ?_, hd2 s i hd⟩) h
    show parseSpecialRelativeOrAuthority s i url = _
    unfold parseSpecialRelativeOrAuthority
    rw [hd, if_pos (show (c!"/" :: c!"/" :: rest).take 2 = u!"//" from rfl)]
  · refine silent_step (by decide) (fun s i hd => ⟨i + 2, ?_, hd2 s i hd⟩) h
    show parseSpecialAuthoritySlashes s i url = _
    unfold parseSpecialAuthoritySlashes
    rw [hd, if_pos (show (c!"/" :: c!"/" :: rest).take 2 = u!"//" from rfl)]

/-- "//" and a host behind a scheme that is not special -/
theorem fine_empty (env : Env) : FineHost env true [] := ⟨.inl (by simp), .str [], rfl⟩

theorem silent_absolute {vh vo : Str → Prop} (hv : HostsOK env vh vo) {scheme front q f : Str}
    (hl : env.maxStrDigits = 0 ∨ front.length ≤ env.maxStrDigits) (h : AbsoluteURL vh vo scheme front)
    (hq : QueryPart q) (hf : FragmentPart f) : Silent env e base .schemeStart (front ++ (q ++ f)) {} scheme := by
  obtain ⟨sc, rest, hsc, rfl, rfl, h⟩ := h
  rw [List.append_assoc, List.cons_append]
  have lim : ∀ t : Str, t.length ≤ rest.length → env.maxStrDigits = 0 ∨ t.length ≤ env.maxStrDigits := by
    intro t ht
    rcases hl with hl | hl
    · exact .inl hl
    · rw [List.length_append, List.length_cons] at hl
      exact .inr (by omega)
  by_cases hfile : Spec.toLower sc = u!"file"
  · rw [if_pos hfile] at h
    have ht : (rest ++ (q ++ f)).take 2 = u!"//" := by
      rcases h with ⟨host, path, rfl, -⟩ | ⟨path, rfl, -⟩ <;> simp
    refine silent_scheme hsc (st' := .file) (rest' := rest ++ (q ++ f)) (u := { scheme := Spec.toLower sc }) (by decide)
      (fun s i hd => ⟨i, hd, ?_⟩) ?_
    · dsimp only
      rw [if_pos hfile, if_pos ht]
    · rw [hfile]
      exact silent_file_relative hv h hq hf (segs := []) rfl
  · rw [if_neg hfile] at h
    by_cases hsp : Spec.isSpecial (Spec.toLower sc) = true
    · rw [if_pos hsp] at h
      rw [isSpecial_eq] at hsp
      obtain ⟨host, port, path, rfl, hh, hpo, hpa⟩ := h
      have e1 : u!"//" ++ host ++ port ++ path ++ (q ++ f) = c!"/" :: c!"/" :: (host ++ (port ++ (path ++ (q ++ f)))) := by simp
      rw [e1]
      obtain ⟨st, hst, hsts⟩ : ∃ st, (∀ (i : Nat) (u : Rec), u.scheme = Spec.toLower sc →
          (if ((match base with | some b => b.scheme == u.scheme | none => false) : Bool) = true then Out.to .specialRelativeOrAuthority i u
            else .to .specialAuthoritySlashes i u) = .to st i u) ∧ (st = .specialRelativeOrAuthority ∨ st = .specialAuthoritySlashes) := by
        generalize hw : ((match base with | some b => b.scheme == Spec.toLower sc | none => false) : Bool) = w
        cases w with
        | true => exact ⟨.specialRelativeOrAuthority, fun i u hu => by rw [hu, hw]; rfl, .inl rfl⟩
        | false => exact ⟨.specialAuthoritySlashes, fun i u hu => by rw [hu, hw]; rfl, .inr rfl⟩
      refine silent_scheme hsc (st' := st) (rest' := c!"/" :: c!"/" :: (host ++ (port ++ (path ++ (q ++ f)))))
        (u := { scheme := Spec.toLower sc }) (by rcases hsts with rfl | rfl <;> decide) (fun s i hd => ⟨i, hd, ?_⟩) ?_
      · have := hst i { scheme := Spec.toLower sc } rfl
        dsimp only at this ⊢
        rw [if_neg hfile, if_pos (show Rec.isSpecial { scheme := Spec.toLower sc } = true from hsp)]
        exact this
      · refine silent_special_slashes hsts ?_
        exact silent_ignoreSlashes (hv.special _ hh).2.1 hpo hpa hq hf (lim _ (by simp; omega)) (segs := []) rfl hsp (hv.special _ hh).1
    · rw [if_neg hsp] at h
      rw [isSpecial_eq, Bool.not_eq_true] at hsp
      have hsp' : ¬ Rec.isSpecial { scheme := Spec.toLower sc } = true := by
        show ¬ isSpecialScheme (Spec.toLower sc) = true
        rw [hsp]; simp
      -- the cases with a slash
      have slash : ∀ r : Str, rest ++ (q ++ f) = c!"/" :: r →
          Silent env e base .pathOrAuthority r { scheme := Spec.toLower sc } (Spec.toLower sc) →
          Silent env e base .schemeStart (sc ++ c!":" :: (rest ++ (q ++ f))) {} (Spec.toLower sc) := by
        intro r hr hsil
        refine silent_scheme hsc (st' := .pathOrAuthority) (rest' := r)
          (u := { scheme := Spec.toLower sc }) (by decide) (fun s i hd => ⟨i + 1, drop_after (by rw [hd, hr]), ?_⟩) hsil
        dsimp only
        rw [if_neg hfile, if_neg hsp', hr, List.head?_cons, if_pos rfl]
      rcases h with ⟨hp, path, rfl, hhp, hpa⟩ | ⟨p, rfl, hp⟩ | hp
      · obtain ⟨host, port, rfl, hfine, hpo, hne, hlen⟩ : ∃ host port, hp = host ++ port ∧ FineHost env true host ∧ PortPart port ∧
            (host = [] → port = []) ∧ port.length ≤ hp.length := by
          rcases hhp with rfl | ⟨host, port, rfl, hh, hpo⟩
          · exact ⟨[], [], rfl, fine_empty env, .inl rfl, fun _ => rfl, Nat.le_refl _⟩
          · exact ⟨host, port, rfl, (hv.other _ hh).2, hpo, fun h => absurd h (hv.other _ hh).1, by simp⟩
        refine slash (c!"/" :: (host ++ (port ++ (path ++ (q ++ f))))) (by simp) ?_
        refine silent_step (st' := .authority) (url' := { scheme := Spec.toLower sc }) (by decide)
          (fun s i hd => ⟨i + 1, ?_, drop_after hd⟩)
          (silent_authority hfine hpo hpa hq hf (lim _ (by simp at hlen ⊢; omega)) (segs := []) rfl ?_ (fun h => ⟨rfl, hne h⟩))
        · show parsePathOrAuthority s i _ = _
          unfold parsePathOrAuthority
          rw [hd, List.head?_cons, if_pos rfl]
        · show true = !isSpecialScheme (Spec.toLower sc)
          rw [hsp]; rfl
      · refine slash (p ++ (q ++ f)) (by simp) ?_
        refine silent_step (st' := .path) (url' := { scheme := Spec.toLower sc }) (by decide)
          (fun s i hd => ⟨i, ?_, hd⟩) (silent_path (pathRelative_units hp) hq hf (segs := []) rfl)
        show parsePathOrAuthority s i _ = _
        unfold parsePathOrAuthority
        rw [hd, if_neg]
        cases p with
        | nil =>
          cases ht : q ++ f with
          | nil => simp
          | cons x t =>
            rcases head_tail hq hf ht with rfl | rfl <;> simp
        | cons x p => exact fun h => hp.2 h
      · refine silent_scheme hsc (st' := .opaquePath) (rest' := rest ++ (q ++ f))
          (u := { scheme := Spec.toLower sc, path := .opaque [] }) (by decide) (fun s i hd => ⟨i, hd, ?_⟩)
          (silent_opaque (pathRelative_units hp.1) hq hf)
        dsimp only
        rw [if_neg hfile, if_neg hsp', if_neg]
        cases rest with
        | nil =>
          cases ht : q ++ f with
          | nil => simp
          | cons x t =>
            rcases head_tail hq hf ht with rfl | rfl <;> simp
        | cons x p => exact fun h => hp.1.2 h

/-- a relative reference does not start with a scheme -/
theorem relative_no_scheme {x q f : Str} (hx : x.head? = some c!"/" ∨ PathRelativeSchemeless x) (hq : QueryPart q) (hf : FragmentPart f) :
    ¬ HasScheme (x ++ (q ++ f)) := by
  rintro ⟨sc, rest, ⟨c, cs, rfl, hc, hcs⟩, he⟩
  rcases hx with hx | hx
  · cases x with
    | nil => cases hx
    | cons y x =>
      cases hx
      simp only [List.cons_append, List.cons.injEq] at he
      obtain ⟨rfl, -⟩ := he
      revert hc
      unfold Letter
      decide
  · have hno : ∀ y ∈ (c :: cs) ++ u!":", y ≠ c!"?" ∧ y ≠ c!"#" := by
      intro y hy
      rcases List.mem_append.1 hy with hy | hy
      · have : isSchemeChar y = true := by
          rcases List.mem_cons.1 hy with rfl | hy
          · exact (schemeChar_iff _).2 (.inl hc)
          · exact (schemeChar_iff _).2 (hcs y hy)
        constructor <;> (rintro rfl; revert this; decide)
      · simp only [List.mem_cons, List.not_mem_nil, or_false] at hy
        subst hy
        decide
    rcases List.append_eq_append_iff.1 he with ⟨a, h1, h2⟩ | ⟨a, h1, h2⟩
    · cases ha : a with
      | nil =>
        rw [ha, List.append_nil] at h1
        exact hx.2 ⟨c :: cs, [], ⟨c, cs, rfl, hc, hcs⟩, by rw [← h1, List.append_nil]⟩
      | cons y a' =>
        have := hno y (by rw [h1, ha]; simp)
        rw [ha, List.cons_append] at h2
        rcases head_tail hq hf h2 with rfl | rfl
        · exact this.1 rfl
        · exact this.2 rfl
    · exact hx.2 ⟨c :: cs, a, ⟨c, cs, rfl, hc, hcs⟩, h1⟩

theorem silent_relativeURL {vh vo : Str → Prop} (hv : HostsOK env vh vo) {b : Rec} {segs : List Str} (hb : b.path = .list segs) {front q f : Str}
    (hl : env.maxStrDigits = 0 ∨ front.length ≤ env.maxStrDigits) (h : RelativeURL vh vo b front)
    (hq : QueryPart q) (hf : FragmentPart f) : Silent env e (some b) .schemeStart (front ++ (q ++ f)) {} b.scheme := by
  have lim : ∀ t : Str, t.length ≤ front.length → env.maxStrDigits = 0 ∨ t.length ≤ env.maxStrDigits := by
    intro t ht
    rcases hl with hl | hl
    · exact .inl hl
    · exact .inr (by omega)
  unfold RelativeURL at h
  have start : (front.head? = some c!"/" ∨ PathRelativeSchemeless front) →
      Silent env e (some b) (if b.scheme = u!"file" then .file else .relative) (front ++ (q ++ f)) {} b.scheme →
      Silent env e (some b) .schemeStart (front ++ (q ++ f)) {} b.scheme :=
    fun h1 h2 => silent_noScheme (relative_no_scheme h1 hq hf) (silent_noScheme_relative hb h2)
  by_cases hfile : b.scheme = u!"file"
  · rw [if_pos hfile] at h
    rw [if_pos hfile] at start
    rw [hfile] at start ⊢
    have abs : ∀ {p}, front = c!"/" :: p → PathRelative p → Silent env e (some b) .schemeStart (front ++ (q ++ f)) {} u!"file" := by
      intro p hfr hp
      refine start (.inl (by rw [hfr]; rfl)) ?_
      rw [hfr, List.cons_append]
      exact silent_file_slash (silent_fileSlash_path hp hq hf (segs := []) rfl)
    rcases h with h | ⟨-, p, hfr, hp⟩ | ⟨-, ⟨p, hfr, hp⟩, -⟩ | h
    · refine start (.inl ?_) (silent_file_relative hv h hq hf (segs := []) rfl)
      rcases h with ⟨host, path, rfl, -⟩ | ⟨path, rfl, -⟩ <;> simp
    · exact abs hfr hp
    · exact abs hfr hp
    · exact start (.inr h) (silent_file_path hfile h hq hf hb)
  · rw [if_neg hfile] at h
    rw [if_neg hfile] at start
    have abs : ∀ {p}, front = c!"/" :: p → PathRelative p → Silent env e (some b) .schemeStart (front ++ (q ++ f)) {} b.scheme := by
      intro p hfr hp
      refine start (.inl (by rw [hfr]; rfl)) ?_
      rw [hfr, List.cons_append]
      exact silent_relative_slash hfile (silent_relativeSlash_path hp hq hf (segs := []) rfl)
    by_cases hsp : Spec.isSpecial b.scheme = true
    · rw [if_pos hsp] at h
      rw [isSpecial_eq] at hsp
      rcases h with ⟨host, port, path, rfl, hh, hpo, hpa⟩ | ⟨p, hfr, hp⟩ | h
      · refine start (.inl rfl) ?_
        have e1 : u!"//" ++ host ++ port ++ path ++ (q ++ f) = c!"/" :: c!"/" :: (host ++ (port ++ (path ++ (q ++ f)))) := by simp
        rw [e1]
        exact silent_relative_slash hfile (silent_relativeSlash_special (hv.special _ hh).2.1 hpo hpa hq hf (lim _ (by simp; omega))
          (segs := []) rfl hsp (hv.special _ hh).1)
      · exact abs hfr hp
      · exact start (.inr h) (silent_relative_path hfile h.1 hq hf hb)
    · rw [if_neg hsp] at h
      rw [isSpecial_eq, Bool.not_eq_true] at hsp
      rcases h with ⟨hp, path, rfl, hhp, hpa⟩ | ⟨p, hfr, hp⟩ | h
      · obtain ⟨host, port, rfl, hfine, hpo, hne, hlen⟩ : ∃ host port, hp = host ++ port ∧ FineHost env true host ∧ PortPart port ∧
            (host = [] → port = []) ∧ port.length ≤ hp.length := by
          rcases hhp with rfl | ⟨host, port, rfl, hh, hpo⟩
          · exact ⟨[], [], rfl, fine_empty env, .inl rfl, fun _ => rfl, Nat.le_refl _⟩
          · exact ⟨host, port, rfl, (hv.other _ hh).2, hpo, fun h => absurd h (hv.other _ hh).1, by simp⟩
        refine start (.inl rfl) ?_
        have e1 : u!"//" ++ (host ++ port) ++ path ++ (q ++ f) = c!"/" :: c!"/" :: (host ++ (port ++ (path ++ (q ++ f)))) := by simp
        rw [e1]
        exact silent_relative_slash hfile (silent_relativeSlash_other hfine hpo hpa hq hf (lim _ (by simp at hlen ⊢; omega))
          (segs := []) rfl hsp hne)
      · exact abs hfr hp
      · exact start (.inr h) (silent_relative_path hfile h.1 hq hf hb)

end

end Urlstd
