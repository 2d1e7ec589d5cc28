/-
Property C77: relative references are resolved as in RFC 3986.
-/
import Verif.Lemmas.Rfc3986
import Verif.Props.Reference

namespace Urlstd.Props

open Spec (IsStr Special SameAuthority pathSerializer queryEncode fragmentEncode)
open Spec.Rfc (Ref Plain transform pathEncode Drive SegmentIn)

/-- a plain reference is what is left after the preparation of the input -/
theorem plain_prepared {sp : Prop} {r : Ref} (h : Plain sp r) : prepared r.text none = r.text := by
  show removeTabNewline (stripBoth isC0OrSpace r.text) = _
  have hend : ∀ c, r.text.head? = some c ∨ r.text.getLast? = some c → isC0OrSpace c = false := by
    intro c hc
    cases h' : isC0OrSpace c with
    | false => rfl
    | true => exact absurd (isC0OrSpace_iff.1 h') (h.noSpace c hc)
  rw [stripBoth_eq, dropWhile_none, stripRight_id, removeTabNewline_id]
  · intro c hc
    cases h' : isTabNewline c with
    | false => rfl
    | true => exact absurd (isTabNewline_iff.1 h') (h.noTab c hc)
  · exact fun c hc => hend c (.inr hc)
  · exact fun c hc => hend c (.inl hc)

theorem ref_text (r : Ref) : r.text = r.path ++ tailStr r.query r.fragment := by
  obtain ⟨p, q, f⟩ := r
  cases q <;> cases f <;> simp [Ref.text, tailStr]

/-- C77 is false for the empty reference and a file base: the path gets an additional "/" (C36). -/
theorem C77_false_empty_file :
    (transform exFile.host.isSome (pathSerializer exFile.path) exFile.query ⟨[], none, none⟩).path = u!"/a/b" ∧
    ∃ u, (parseUrl exEnv (Ref.mk [] none none).text (.record exFile)).res = .ok u ∧ pathSerializer u.path = u!"/a/b/" :=
  ⟨by decide, { exFile with path := .list [u!"a", u!"b", []] }, by decide +kernel, by decide⟩

/-- C77. A relative reference without authority, against a base whose path is not opaque, resolves to the URL that RFC 3986,
section 5.2 prescribes for the percent-encoded reference. If the base is a file URL, then no drive letters are involved, and
the reference is not empty (C36). -/
theorem C77_resolution_partial (env : Env) (b : Rec) (hb : Parsed env b) (hp : ∀ t, b.path ≠ .opaque t) (r : Ref)
    (hfile : b.scheme = u!"file" → r.text ≠ [] ∧ (∀ s l, b.path = .list (s :: l) → ¬ Drive s) ∧
      ∀ s, SegmentIn r.path s → ¬ Drive s)
    (hr : Plain (Special b.scheme) r) (special : Bool) (hsp : special = true ↔ Special b.scheme) :
    ∃ u, (parseUrl env r.text (.record b)).res = .ok u ∧ SameAuthority u b ∧
      Ref.mk (pathSerializer u.path) u.query u.fragment =
        transform b.host.isSome (pathSerializer b.path) b.query
          ⟨pathEncode r.path, r.query.map (queryEncode special), r.fragment.map fragmentEncode⟩ := by
  have hw := hb.wf (hostSpec_true env)
  have hsp' : b.isSpecial = special := by
    cases special with
    | true => exact (special_iff _).2 (hsp.1 rfl)
    | false =>
      cases h : b.isSpecial with
      | false => rfl
      | true => exact absurd (hsp.2 ((special_iff _).1 h)) (by simp)
  obtain ⟨p, hp⟩ : ∃ p, b.path = .list p := by
    cases h : b.path with
    | «opaque» t => exact absurd h (hp t)
    | list p => exact ⟨p, rfl⟩
  have hdrive : NoDrive b.scheme p := by
    intro hsc s hs
    cases h : isWindowsDriveLetter s with
    | false => rfl
    | true =>
      cases p with
      | nil => cases hs
      | cons x l =>
        cases hs
        exact absurd (drive_iff.1 h) ((hfile hsc).2.1 _ _ hp)
  have hbare : b.scheme = u!"file" → b.bareFile := fun h => ⟨h, hw.auth.bare (.inr (.inr h))⟩
  have hfsp : b.scheme = u!"file" → special = true := fun h => by rw [← hsp', Rec.isSpecial, h]; decide
  have hnil : b.scheme = u!"file" → r.path = [] → tailStr r.query r.fragment ≠ [] := by
    intro h h1 h2
    refine (hfile h).1 ?_
    rw [ref_text, h1, h2]; rfl
  have hseg' : b.scheme = u!"file" → ∀ s, SegmentIn r.path s → ¬ Drive s := fun h => (hfile h).2.2
  clear hfile
  have hprep := plain_prepared hr
  have hstr := hr.str
  have hns := hr.noScheme
  rw [ref_text] at hprep hstr hns ⊢
  have hpath := hr.path
  have hq := hr.query
  have hsl := hr.noAuthority
  have hbs : special = true → 92 ∉ r.path := fun h => hr.noBackslash (hsp.1 h)
  have hdot : NoPctDot r.path := hr.noEncodedDot
  clear hr
  obtain ⟨path, q, f⟩ := r
  dsimp only at *
  have hpstr : IsStr path := fun c hc => hstr c (List.mem_append_left _ hc)
  have hqf : ∀ c ∈ path, notQF c = true := by
    intro c hc
    have := hpath c hc
    unfold notQF
    simp [this.1, this.2]
  have hqe : q.map (encodeQuery .utf8 b) = q.map (queryEncode special) := by
    cases q with
    | none => rfl
    | some q =>
      have hs : IsStr q := fun c hc => hstr c (by
        refine List.mem_append_right _ ?_
        cases f <;> simp [tailStr, hc])
      rw [Option.map_some, Option.map_some, ← queryEncode_eq hs, ← hsp']
      unfold encodeQuery
      simp only [ite_self]
      rfl
  have hfe : f.map (utf8PercentEncode · safeFragment) = f.map fragmentEncode := by
    cases f with
    | none => rfl
    | some f =>
      have hs : IsStr f := fun c hc => hstr c (by
        refine List.mem_append_right _ ?_
        cases q <;> simp [tailStr, hc])
      rw [Option.map_some, Option.map_some, fragmentEncode_eq hs]
  have hpe : ∀ {t : Str}, IsStr t → utf8PercentEncode t safePath = pathEncode t :=
    fun hs => utf8PercentEncode_spec hs (by decide +kernel)
  obtain ⟨hsegs, -, hne⟩ : SegsOK _ b.scheme p ∧ _ ∧ (b.host = none → p ≠ []) := by
    have := hw.path
    unfold PathWF at this
    rw [hp] at this
    exact this
  have hseg : ∀ s ∈ p, 47 ∉ s ∧ s ≠ u!"." ∧ s ≠ u!".." := by
    intro s hs
    have := hsegs.segs s hs
    refine ⟨fun h => ?_, ?_, ?_⟩
    · exact absurd (this.chars 47 h).2 (by simp [isPathSep])
    · rintro rfl
      exact absurd this.single (by decide)
    · rintro rfl
      exact absurd this.double (by decide)
  rw [parseUrl_record, hp, slashText_spec]
  rcases path with _ | ⟨c, t⟩
  · -- no path
    refine ⟨b.resolved p ((q.map (encodeQuery .utf8 b)).or b.query) (f.map (utf8PercentEncode · safeFragment)), ?_,
      ⟨rfl, rfl, rfl, rfl, rfl⟩, ?_⟩
    · by_cases hnf : b.scheme = u!"file"
      · exact resolve_empty_file hp (hbare hnf) (hnil hnf rfl) hq hprep
      · exact resolve_empty hp hnf hq hprep
    show Ref.mk (pathSerializer (.list p)) ((q.map (encodeQuery .utf8 b)).or b.query) (f.map _) = _
    rw [slashText_spec, hqe, hfe]
    have : pathEncode [] = [] := by decide
    unfold transform
    rw [this, if_pos rfl]
    cases q <;> rfl
  · by_cases hc : c = 47
    · -- an absolute path
      subst hc
      have htstr : IsStr t := fun x hx => hpstr x (List.mem_cons_of_mem _ hx)
      have htb : special = true → 92 ∉ t := fun h hm => hbs h (List.mem_cons_of_mem _ hm)
      have h47 : t.head? ≠ some 47 := by
        intro h
        cases t with
        | nil => cases h
        | cons d ds =>
          cases h
          exact hsl ⟨ds, rfl⟩
      have h92 : b.isSpecial = true → t.head? ≠ some 92 :=
        fun h h' => htb (hsp' ▸ h) (List.mem_of_mem_head? h')
      have hqf' : ∀ c ∈ t, notQF c = true := fun x hx => hqf x (List.mem_cons_of_mem _ hx)
      have htd : ∀ s, SegmentIn t s → SegmentIn (47 :: t) s := by
        rintro s ⟨x, y, rfl, hx, hy⟩
        refine ⟨47 :: x, y, rfl, .inr ?_, hy⟩
        rcases hx with rfl | hx
        · rfl
        · rw [List.getLast?_cons, hx]; rfl
      refine ⟨b.resolved (addPieces b.scheme [] (pathPieces b.isSpecial t)) (q.map (encodeQuery .utf8 b))
        (f.map (utf8PercentEncode · safeFragment)), ?_, ⟨rfl, rfl, rfl, rfl, rfl⟩, ?_⟩
      · by_cases hnf : b.scheme = u!"file"
        · exact resolve_slash_file hp (hbare hnf) hdrive hqf' h47 (h92 (hsp' ▸ hfsp hnf)) hq hprep
        · exact resolve_slash hp hnf hqf' h47 h92 hq hprep
      show Ref.mk (pathSerializer (.list _)) (q.map (encodeQuery .utf8 b)) (f.map _) = _
      rw [slashText_spec, hqe, hfe, hsp', addPieces_text htstr (hdot.sub ⟨[47], [], by simp⟩) htb (by simp)
        (by intro _ _ h; cases h) (fun h => noDrive_pieces htb htstr fun s hs => hseg' h s (htd s hs))]
      have : pathEncode (47 :: t) = 47 :: utf8PercentEncode t safePath := by
        rw [← hpe hpstr, encode_cons (by decide)]; rfl
      unfold transform
      dsimp only
      rw [this, if_neg (by simp), if_pos ⟨_, rfl⟩]
      rfl
    · -- a relative path
      have hc92 : b.isSpecial = true → c ≠ 92 := fun h h' => hbs (hsp' ▸ h) (by simp [h'])
      refine ⟨b.resolved (addPieces b.scheme p.dropLast (pathPieces b.isSpecial (c :: t))) (q.map (encodeQuery .utf8 b))
        (f.map (utf8PercentEncode · safeFragment)), ?_, ⟨rfl, rfl, rfl, rfl, rfl⟩, ?_⟩
      · by_cases hnf : b.scheme = u!"file"
        · exact resolve_segment_file hp (hbare hnf) hdrive hqf hc (hc92 (hsp' ▸ hfsp hnf)) hq hns hprep
            (noDrive_start (hbs (hfsp hnf)) hqf q f (hseg' hnf))
        · exact resolve_segment hp hnf hqf hc hc92 hq hns hprep
      show Ref.mk (pathSerializer (.list _)) (q.map (encodeQuery .utf8 b)) (f.map _) = _
      rw [slashText_spec, hqe, hfe, hsp', addPieces_text hpstr hdot hbs
        (fun s hs => hseg s (List.dropLast_subset p hs)) hdrive.dropLast (fun h => noDrive_pieces hbs hpstr (hseg' h))]
      have henc : pathEncode (c :: t) ≠ [] ∧ ¬ u!"/" <+: pathEncode (c :: t) := by
        rw [← hpe hpstr]
        exact encode_head hpstr hc
      unfold transform
      dsimp only
      rw [if_neg henc.1, if_neg henc.2, merge_text (fun s hs => (hseg s hs).1), hpe hpstr]
      intro h
      cases hh : b.host with
      | none => exact absurd h (hne hh)
      | some _ => rfl

/-- a reference with dot segments, a character to encode, a query and a fragment -/
def exRef : Ref := ⟨u!"../é/./..//x%2f", some u!"y/../'", some u!"s/./`"⟩

theorem exRef_plain : Plain (Special exRecord.scheme) exRef where
  str := by decide
  path := by decide
  query := by decide
  noScheme := by
    rintro ⟨sc, rest, ⟨c, cs, rfl, hc, -⟩, h⟩
    injection h with h _
    subst h
    exact absurd hc (by decide)
  noAuthority := by decide
  noBackslash := fun _ => by decide
  noEncodedDot := by decide
  noTab := by decide
  noSpace := by
    intro c hc
    rcases hc with hc | hc <;> (cases hc; decide)

example : ∃ u, (parseUrl exEnv exRef.text (.record exRecord)).res = .ok u ∧ SameAuthority u exRecord ∧
    Ref.mk (pathSerializer u.path) u.query u.fragment = ⟨u!"//x%2f", some u!"y/../%27", some u!"s/./%60"⟩ := by
  obtain ⟨u, h1, h2, h3⟩ := C77_resolution_partial exEnv exRecord exRecord_parsed (by intro t h; cases h) exRef
    (fun h => absurd h (by decide)) exRef_plain
    true ⟨fun _ => ⟨some 80, by decide⟩, fun _ => rfl⟩
  refine ⟨u, h1, h2, h3.trans ?_⟩
  decide +kernel

/-- a file URL -/
example : ∃ u, (parseUrl exEnv u!"..//./c" (.record exFile)).res = .ok u ∧ SameAuthority u exFile ∧
    Ref.mk (pathSerializer u.path) u.query u.fragment = ⟨u!"//c", none, none⟩ := by
  have hplain : Plain (Special exFile.scheme) ⟨u!"..//./c", none, none⟩ :=
    { str := by decide, path := by decide, query := by decide, noAuthority := by decide, noBackslash := fun _ => by decide
      noEncodedDot := by decide, noTab := by decide
      noScheme := by
        rintro ⟨sc, rest, ⟨c, cs, rfl, hc, -⟩, h⟩
        injection h with h _
        subst h
        exact absurd hc (by decide)
      noSpace := by
        intro c hc
        rcases hc with hc | hc <;> (cases hc; decide) }
  have hbase : ∀ s l, exFile.path = .list (s :: l) → ¬ Drive s := by
    intro s l h
    cases h
    rintro ⟨_, -, h | h⟩ <;> cases h
  have href : ∀ s, SegmentIn u!"..//./c" s → ¬ Drive s := by
    rintro s ⟨x, y, h, -⟩ ⟨l, -, rfl | rfl⟩
    · exact absurd (show c!":" ∈ u!"..//./c" by rw [show u!"..//./c" = _ from h]; simp) (by decide)
    · exact absurd (show c!"|" ∈ u!"..//./c" by rw [show u!"..//./c" = _ from h]; simp) (by decide)
  obtain ⟨u, h1, h2, h3⟩ := C77_resolution_partial exEnv exFile exFile_parsed (by intro t h; cases h) ⟨u!"..//./c", none, none⟩
    (fun _ => ⟨by decide, hbase, href⟩) hplain true ⟨fun _ => ⟨none, by decide⟩, fun _ => rfl⟩
  exact ⟨u, h1, h2, h3.trans (by decide +kernel)⟩

/-- what the conditions exclude: percent-encoded dots, backslashes and drive letters -/
example : (parseUrl exEnv u!"%2E./x" (.record exRecord)).res.map (pathSerializer ·.path) = .ok u!"/x" ∧
    (transform true (pathSerializer exRecord.path) none ⟨u!"%2E./x", none, none⟩).path = u!"/a/%2E./x" := by
  decide +kernel
example : (parseUrl exEnv u!"x\\..\\y" (.record exRecord)).res.map (pathSerializer ·.path) = .ok u!"/a/y" ∧
    (transform true (pathSerializer exRecord.path) none ⟨u!"x\\..\\y", none, none⟩).path = u!"/a/x\\..\\y" := by
  decide +kernel
example : (parseUrl exEnv u!"/c|/../../x" (.record exFile)).res.map (pathSerializer ·.path) = .ok u!"/c:/x" ∧
    (transform true (pathSerializer exFile.path) none ⟨u!"/c|/../../x", none, none⟩).path = u!"/x" := by
  decide +kernel

end Urlstd.Props
