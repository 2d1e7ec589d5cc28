/-
Property C101: resolving a reference is putting it behind a part of the href of the base.
-/
import Verif.Lemmas.Place4
import Verif.Props.Depend
import Verif.Props.Exact

namespace Urlstd.Props

open Spec (IsStr Denotes FileText Relative tailText TailOK RefersTo TwoSlashes NoPath NoQuery NoSlash Slash dropTabs stripC0 isSpecial isOpaque Place FilePlace
  OnDrive refPath DriveFirst HasScheme SchemeText C0OrSpace TabOrNewline)
open Spec.Rfc (split)

variable {env : Env}

theorem list_of_notOpaque {b : Rec} (h : isOpaque b = false) : ∃ p, b.path = .list p := by
  unfold isOpaque at h
  split at h
  · cases h
  · exact ⟨_, by assumption⟩

/-- what stands in front is printable, hence nothing is taken away -/
theorem trimmed_front {a r : Str} (hne : a ≠ []) (ha : ∀ c ∈ a, 32 < c ∧ c ≤ 126) (hr : Spec.Clean r) : Trimmed (a ++ r) := by
  refine ⟨⟨?_, ?_, ?_⟩, ?_⟩
  · intro c hc
    rcases List.mem_append.1 hc with hc | hc
    · have := ha c hc; omega
    · exact hr.1 c hc
  · intro c hc
    rcases List.mem_append.1 hc with hc | hc
    · have := ha c hc
      unfold TabOrNewline
      omega
    · exact hr.2.1 c hc
  · intro c hc
    rw [List.getLast?_append] at hc
    cases hl : r.getLast? with
    | some d => rw [hl] at hc; cases hc; exact hr.2.2 c hl
    | none =>
      rw [hl] at hc
      have := ha c (List.mem_of_getLast? hc)
      unfold C0OrSpace
      omega
  · intro c hc
    cases a with
    | nil => exact absurd rfl hne
    | cons d a =>
      cases hc
      have := ha c (by simp)
      unfold C0OrSpace
      omega

theorem refersTo_clean {b : Rec} {s r : Str} (hs : IsStr s) (hr : RefersTo b (dropTabs (stripC0 s)) r) : Spec.Clean r := by
  have ht := (prepared_trimmed hs).1
  rw [← prepared_std] at ht
  rcases hr with ⟨-, rfl⟩ | ⟨-, sc, -, -, h⟩
  · exact ht
  · rw [h] at ht
    exact clean_suffix ht

theorem beforePath_root (b : Rec) : b.beforePath = rootText b ++ (if b.needsDot then u!"/." else []) := by
  unfold Rec.beforePath rootText authText
  cases b.host <;> simp

theorem rootText_before (b : Rec) : ∀ c ∈ rootText b, c ∈ b.beforePath := by
  intro c hc
  rw [beforePath_root]
  simp [hc]

theorem queryPart_print {b : Rec} (hw : WF true (HostWF env) b) : ∀ c ∈ Spec.queryPart (split b.serialize), 32 < c ∧ c ≤ 126 := by
  intro c hc
  rw [split_serialize hw] at hc
  unfold Spec.queryPart at hc
  dsimp only at hc
  cases hq : b.query with
  | none => rw [hq] at hc; cases hc
  | some q =>
    rw [hq] at hc
    rcases List.mem_append.1 hc with hc | hc
    · simp only [List.mem_cons, List.not_mem_nil, or_false] at hc
      omega
    · exact querySafe_print (hw.query q hq c hc)

/-- the parts of the href of a URL -/
theorem part_print {b : Rec} (hw : WF true (HostWF env) b) {p : List Str} (hp : b.path = .list p) :
    (∀ c ∈ rootText b, 32 < c ∧ c ≤ 126) ∧ (∀ c ∈ writtenPath b, 32 < c ∧ c ≤ 126) ∧ (∀ c ∈ Spec.directory (writtenPath b), 32 < c ∧ c ≤ 126) ∧
      ∀ c ∈ Spec.queryPart (split b.serialize), 32 < c ∧ c ≤ 126 := by
  have h2 : ∀ c ∈ writtenPath b, 32 < c ∧ c ≤ 126 := by
    intro c hc
    unfold writtenPath at hc
    rcases List.mem_append.1 hc with hc | hc
    · split at hc
      · simp only [List.mem_cons, List.not_mem_nil, or_false] at hc
        omega
      · cases hc
    · exact hw.listPath_print hp c hc
  refine ⟨fun c hc => hw.beforePath_print c (rootText_before b c hc), h2, ?_, ?_⟩
  · intro c hc
    rcases directory_chars hc with rfl | hc
    · decide
    · exact h2 c hc
  · exact queryPart_print hw

theorem rootText_ne (b : Rec) : rootText b ≠ [] ∧ b.scheme ++ u!":" ≠ [] := by
  unfold rootText
  simp

theorem scheme_print {b : Rec} (hw : WF true (HostWF env) b) : ∀ c ∈ b.scheme ++ u!":", 32 < c ∧ c ≤ 126 := by
  intro c hc
  rcases List.mem_append.1 hc with hc | hc
  · exact hw.auth.scheme.print c hc
  · simp only [List.mem_cons, List.not_mem_nil, or_false] at hc
    omega

theorem mem_append_all {P : Nat → Prop} {a b : Str} (ha : ∀ c ∈ a, P c) (hb : ∀ c ∈ b, P c) : ∀ c ∈ a ++ b, P c := by
  intro c hc
  rcases List.mem_append.1 hc with hc | hc
  · exact ha c hc
  · exact hb c hc

theorem place_print {b : Rec} (hw : WF true (HostWF env) b) {p : List Str} (hp : b.path = .list p) {sp : Bool} {r part : Str}
    (h : Place sp (split b.serialize) r part) : part ≠ [] ∧ ∀ c ∈ part, 32 < c ∧ c ≤ 126 := by
  obtain ⟨h1, h2, h3, h4⟩ := part_print hw hp
  obtain ⟨n1, n2⟩ := rootText_ne b
  cases h with
  | scheme => rw [schemePart_eq hw]; exact ⟨n2, scheme_print hw⟩
  | root => rw [rootPart_eq hw]; exact ⟨n1, h1⟩
  | directory => rw [rootPart_eq hw, path_part hw]; exact ⟨by simp [n1], mem_append_all h1 h3⟩
  | path => rw [rootPart_eq hw, path_part hw]; exact ⟨by simp [n1], mem_append_all h1 h2⟩
  | query => rw [rootPart_eq hw, path_part hw]; exact ⟨by simp [n1], mem_append_all (mem_append_all h1 h2) h4⟩

theorem filePlace_print {b : Rec} (hw : WF true (HostWF env) b) {p : List Str} (hp : b.path = .list p) {r part : Str}
    (h : FilePlace (split b.serialize) r part) : part ≠ [] ∧ ∀ c ∈ part, 32 < c ∧ c ≤ 126 := by
  obtain ⟨h1, h2, h3, h4⟩ := part_print hw hp
  obtain ⟨n1, n2⟩ := rootText_ne b
  have h5 : ∀ c ∈ u!"/", 32 < c ∧ c ≤ 126 := by decide
  cases h with
  | scheme => rw [schemePart_eq hw]; exact ⟨n2, scheme_print hw⟩
  | root => rw [rootPart_eq hw]; exact ⟨n1, h1⟩
  | drive _ _ _ hd =>
    rw [rootPart_eq hw]
    refine ⟨by simp, mem_append_all (mem_append_all h1 h5) fun c hc => ?_⟩
    rw [path_part hw] at hd
    exact h2 c (by rw [hd.2.1]; simp [hc])
  | directory => rw [rootPart_eq hw, path_part hw]; exact ⟨by simp [n1], mem_append_all h1 h3⟩
  | onlyDrive => rw [rootPart_eq hw, path_part hw]; exact ⟨by simp, mem_append_all (mem_append_all h1 h2) h5⟩
  | ownDrive => rw [rootPart_eq hw]; exact ⟨by simp, mem_append_all h1 h5⟩
  | path => rw [rootPart_eq hw, path_part hw]; exact ⟨by simp [n1], mem_append_all h1 h2⟩
  | query => rw [rootPart_eq hw, path_part hw]; exact ⟨by simp [n1], mem_append_all (mem_append_all h1 h2) h4⟩

theorem serialize_denotes {b : Rec} (hw : WF true (HostWF env) b) {p : List Str} (hp : b.path = .list p) (hb : (parseUrl env b.serialize).res = .ok b) :
    Denotes env none b.serialize (.ok b) := by
  have hs : IsStr b.serialize := by
    obtain ⟨h1, h2, h3, h4⟩ := part_print hw hp
    rw [serialize_split]
    intro c hc
    rcases List.mem_append.1 hc with hc | hc
    · rcases List.mem_append.1 hc with hc | hc
      · have := hw.beforePath_print c hc; omega
      · have := hw.listPath_print hp c hc; omega
    · have := hw.afterPath_print c hc; omega
  have := (C83_denotes env b.serialize none hs (by intro b h; cases h) _).1 hb
  rwa [prepared_std, prepared_serialize hw] at this

/-- a reference to a base that is no file URL -/
theorem reference_denotes {b : Rec} {p : List Str} (hp : b.path = .list p) (hf : b.scheme ≠ u!"file") {t r : Str} (hr : RefersTo b t r) :
    ∃ x, Relative env b r x ∧ Denotes env (some b) t x := by
  rcases hr with ⟨h1, rfl⟩ | ⟨h1, sc, h2, h3, rfl⟩
  · obtain ⟨x, hx⟩ := relative_total env hp r
    exact ⟨x, hx, .reference r b p x h1 rfl hp hf hx⟩
  · by_cases h4 : ∃ w, r = u!"//" ++ w
    · obtain ⟨w, rfl⟩ := h4
      obtain ⟨sl, p', rfl, h5, ok⟩ := slashes_parts w
      refine ⟨_, .authority c!"/" c!"/" sl p' (.inl rfl) (.inl rfl) (fun c hc => ⟨h1, h5 c hc⟩) (by rw [h1]; exact ok), ?_⟩
      have := Denotes.specialSlashes (env := env) (base := some b) sc sl p' h2 (by rw [h3]; exact h1) (by rw [h3]; exact hf) h5 ok
      rw [h3] at this
      simpa using this
    · obtain ⟨x, hx⟩ := relative_total env hp r
      exact ⟨x, hx, .sameScheme sc r b x h2 (by rw [h3]; exact h1) (by rw [h3]; exact hf) rfl h3.symm (fun w hw => h4 ⟨w, hw⟩) hx⟩

/-- C101. A reference to a URL that its own href gives back (C30 says which ones do) and whose path is a list: the result is that of the text
that consists of a part of the href and the reference. -/
theorem C101_reference (env : Env) (hi : IdnaOK env) (b : Rec) (h : Parsed env b) (hb : (parseUrl env b.serialize).res = .ok b)
    (ho : isOpaque b = false) (hf : b.scheme ≠ u!"file") (s : Str) (hs : IsStr s) {r part : Str} (hr : RefersTo b (dropTabs (stripC0 s)) r)
    (hp : Place (isSpecial b.scheme) (split b.serialize) r part) :
    (parseUrl env s (.record b)).res = (parseUrl env (part ++ r)).res := by
  obtain ⟨p, hpath⟩ := list_of_notOpaque ho
  have hw : WF true (HostWF env) b := h.wf (hostSpec_wf hi)
  have hc := refersTo_clean hs hr
  obtain ⟨x, h1, h2⟩ := reference_denotes (env := env) hpath hf hr
  obtain ⟨n1, n2⟩ := place_print hw hpath hp
  have h3 := denotes_sound (place_relative hw hf (serialize_denotes hw hpath hb) hpath hc.1 h1 hp) (trimmed_front n1 n2 hc)
  rw [show (parseUrl env (part ++ r)).res = x from h3]
  exact (C83_denotes env s (some b) hs (by rintro _ ⟨⟩ _; exact ⟨p, hpath⟩) x).2 h2

/-- without ":" there is no scheme -/
theorem noScheme_of {t : Str} (h : c!":" ∉ t) : ¬ HasScheme t := by
  rintro ⟨sc, rest, -, rfl⟩
  exact h (by simp)

theorem ex_again : (parseUrl exEnv exRecord.serialize).res = .ok exRecord := by decide +kernel

/-- "x/../y?z" is put behind "http://u:p@ex.com:8080/a/" -/
example : (parseUrl exEnv u!" x/../y?z" (.record exRecord)).res = (parseUrl exEnv u!"http://u:p@ex.com:8080/a/x/../y?z").res :=
  C101_reference exEnv exEnv_idna exRecord exRecord_parsed ex_again rfl (by decide) u!" x/../y?z" (by decide) (r := u!"x/../y?z")
    (part := u!"http://u:p@ex.com:8080/a/") (.inl ⟨noScheme_of (by decide), by decide⟩)
    (.directory (r := u!"x/../y?z") (by decide) fun h => absurd (h _ rfl) (by decide))

/-- C101. A reference to a file URL in the same way. The empty reference is missing, see C36. -/
theorem C101_file (env : Env) (hi : IdnaOK env) (b : Rec) (h : Parsed env b) (hb : (parseUrl env b.serialize).res = .ok b)
    (hf : b.scheme = u!"file") (s : Str) (hs : IsStr s) {r part : Str} (hr : RefersTo b (dropTabs (stripC0 s)) r)
    (hp : FilePlace (split b.serialize) r part) :
    (parseUrl env s (.record b)).res = (parseUrl env (part ++ r)).res := by
  have hw : WF true (HostWF env) b := h.wf (hostSpec_wf hi)
  obtain ⟨p, hpath⟩ : ∃ p, b.path = .list p := by
    refine list_of_notOpaque ?_
    unfold isOpaque
    split
    · next hq =>
      have := hw.path
      unfold PathWF at this
      rw [hq] at this
      exact absurd this.2 (hw.auth.special (by rw [← isSpecial_rec, hf]; decide)).1
    · rfl
  have hc := refersTo_clean hs hr
  obtain ⟨n1, n2⟩ := filePlace_print hw hpath hp
  have hg : Spec.GoodBase (some b) := by rintro _ ⟨⟩ _; exact ⟨p, hpath⟩
  obtain ⟨x, hx⟩ := file_total env (base := some b) (by rintro _ ⟨⟩ _; exact ⟨p, hpath⟩) r
  have h2 : Denotes env (some b) (dropTabs (stripC0 s)) x := by
    rcases hr with ⟨h1, rfl⟩ | ⟨h1, sc, h2, h3, h4⟩
    · exact .fileBase _ b p x h1 rfl hpath hf hx
    · rw [h4]
      exact .file sc r x h2 (h3.trans hf) hx
  have h3 := denotes_sound (place_file hw hf (serialize_denotes hw hpath hb) hpath hc.1 hx hp) (trimmed_front n1 n2 hc)
  rw [show (parseUrl env (part ++ r)).res = x from h3]
  exact (C83_denotes env s (some b) hs hg x).2 h2

/-- the drive letter of the base stays: "/x" is put behind "file:///C:" -/
example : (parseUrl exEnv u!"/x" (.record (Spec.fileURL (some (.str [])) [u!"C:", u!"a"] none none))).res = (parseUrl exEnv u!"file:///C:/x").res :=
  C101_file exEnv exEnv_idna _ (.alone (s := u!"file:///C|/a") (e := .utf8) (by decide) trivial (by decide +kernel)) (by decide +kernel) rfl u!"/x"
    (by decide) (r := u!"/x") (part := u!"file:///C:") (.inl ⟨noScheme_of (by decide), by decide⟩)
    (.drive (d := u!"C:") (rest := u!"/a") (.inl rfl) (by decide) (by decide) ⟨by decide, by decide, .inr ⟨_, rfl⟩⟩)

/-- the empty reference to a file URL is otherwise (C36) -/
example : (parseUrl exEnv [] (.record (Spec.fileURL (some (.str [])) [u!"C:", u!"a"] none none))).res ≠ (parseUrl exEnv u!"file:///C:/a").res := by
  decide +kernel

/-- C101. A fragment behind the href of a URL with an opaque path, without its fragment. Other references to it fail (C83). -/
theorem C101_opaque (env : Env) (hi : IdnaOK env) (b : Rec) (h : Parsed env b) (ho : isOpaque b = true) (s : Str) (hs : IsStr s) {f : Str}
    (hr : dropTabs (stripC0 s) = u!"#" ++ f) :
    (parseUrl env s (.record b)).res =
      (parseUrl env (Spec.rootPart (split b.serialize) ++ (split b.serialize).path ++ Spec.queryPart (split b.serialize) ++ (u!"#" ++ f))).res := by
  have hw : WF true (HostWF env) b := h.wf (hostSpec_wf hi)
  have hc : Spec.Clean (u!"#" ++ f) := by
    have := (prepared_trimmed hs).1
    rwa [← prepared_std, hr] at this
  obtain ⟨t, ht⟩ : ∃ t, b.path = .opaque t := by
    unfold isOpaque at ho
    split at ho
    · exact ⟨_, by assumption⟩
    · cases ho
  have hpw := hw.path
  unfold PathWF at hpw
  rw [ht] at hpw
  obtain ⟨hto, hnull⟩ := hpw
  have hsp : isSpecial b.scheme = false := by
    cases hsp : isSpecial b.scheme with
    | false => rfl
    | true => exact absurd hnull (hw.auth.special (by rw [← isSpecial_rec]; exact hsp)).1
  have hwr : writtenPath b = t := by
    unfold writtenPath Rec.needsDot serializePath
    rw [ht]
    simp
  have hlow := schemeOK_lower hw.auth.scheme
  have htStr : IsStr t := fun c hc => by have := safeC0_print (hto.chars c hc).1; omega
  have henc : Spec.opaqueEncode t = t := by rw [← opaqueEncode_eq htStr, opaque_fixed fun c hc => (hto.chars c hc).1]
  have hd := Denotes.opaque (env := env) (base := none) b.scheme t b.query (some f) (schemeOK_text hw.auth.scheme) (by rw [hlow]; exact hsp)
    (by
      intro c hc hs
      rcases hs with rfl | hs
      · exact hto.head hc
      · cases hs.1)
    ⟨fun c hc => notQF_ne (hto.chars c hc).2, query_tailOK hw⟩
  have hq := query_written hw
  rw [hsp] at hq
  rw [hlow, henc, hq] at hd
  have e0 : b.scheme ++ u!":" ++ (t ++ Spec.queryPart (split b.serialize)) ++ (u!"#" ++ f) = b.scheme ++ u!":" ++ tailText t b.query (some f) := by
    have := queryPart_eq hw t (some f)
    rw [show tailText [] none (some f) = u!"#" ++ f by simp [tailText]] at this
    rw [← this]
    simp
  rw [rootPart_eq hw, path_part hw, hwr, rootText_null hnull, show b.scheme ++ u!":" ++ t ++ Spec.queryPart (split b.serialize) ++ (u!"#" ++ f) =
    b.scheme ++ u!":" ++ (t ++ Spec.queryPart (split b.serialize)) ++ (u!"#" ++ f) by simp, e0]
  have htrim : Trimmed (b.scheme ++ u!":" ++ tailText t b.query (some f)) := by
    rw [← e0]
    have hall : ∀ c ∈ b.scheme ++ u!":" ++ (t ++ Spec.queryPart (split b.serialize)), 32 ≤ c ∧ c ≤ 126 := by
      refine mem_append_all (fun c hc => ?_) (mem_append_all (fun c hc => safeC0_print (hto.chars c hc).1) fun c hc => ?_)
      · have := scheme_print hw c hc; omega
      · have := queryPart_print hw c hc; omega
    refine ⟨⟨?_, ?_, ?_⟩, ?_⟩
    · refine mem_append_all (fun c hc => ?_) hc.1
      have := hall c hc; omega
    · refine mem_append_all (fun c hc => ?_) hc.2.1
      have := hall c hc
      unfold TabOrNewline
      omega
    · intro c hl
      rw [List.getLast?_append] at hl
      cases hl' : (u!"#" ++ f).getLast? with
      | some d => rw [hl'] at hl; cases hl; exact hc.2.2 c hl'
      | none => simp at hl'
    · intro c hh
      cases hsc : b.scheme ++ u!":" with
      | nil => simp at hsc
      | cons d w =>
        rw [hsc] at hh
        cases hh
        have := scheme_print hw c (by rw [hsc]; simp)
        unfold C0OrSpace
        omega
  rw [show (parseUrl env (b.scheme ++ u!":" ++ tailText t b.query (some f))).res = _ from denotes_sound hd htrim]
  refine (C83_denotes env s (some b) hs (by rintro _ ⟨⟩ h; rw [hsp] at h; cases h) _).2 ?_
  rw [hr]
  have := Denotes.opaqueFragment (env := env) (base := some b) f b t rfl ht
  rw [ht] at this
  exact this

example : (parseUrl exEnv u!"#x" (.record { scheme := u!"a", path := .opaque u!"b c ", query := some u!"q", fragment := some u!"f" })).res =
    (parseUrl exEnv u!"a:b c ?q#x").res :=
  C101_opaque exEnv exEnv_idna _ (.alone (s := u!"A:b c ?q#f") (e := .utf8) (by decide) trivial (by decide +kernel)) rfl u!"#x" (by decide)
    (f := u!"x") (by decide)

theorem two_noPath {sp : Bool} {r : Str} (h : TwoSlashes sp r) : ¬ NoPath r := by
  obtain ⟨s1, s2, t, rfl, h1, -⟩ := h
  exact slash_noPath h1

theorem root_not_two {sp : Bool} {s : Nat} {r : Str} (h : NoSlash sp r) : ¬ TwoSlashes sp (s :: r) := by
  rintro ⟨s1, s2, t, e, -, h2⟩
  injection e with _ e
  rw [e] at h
  exact h s2 rfl h2

theorem path_or (r : Str) : ¬ NoPath r ∨ (∃ t, r = c!"?" :: t) ∨ NoQuery r := by
  cases r with
  | nil => exact .inr (.inr fun c hc => by cases hc)
  | cons c t =>
    by_cases h1 : c = c!"?"
    · exact .inr (.inl ⟨t, by rw [h1]⟩)
    · by_cases h2 : c = c!"#"
      · exact .inr (.inr fun d hd => by cases hd; exact h2)
      · exact .inl fun h => (h c rfl).elim h1 h2

/-- there is only one drive letter -/
theorem onDrive_unique {path d rest d' rest' : Str} (h : OnDrive path d rest) (h' : OnDrive path d' rest') : d' = d ∧ rest' = rest := by
  have e : u!"/" ++ d' ++ rest' = u!"/" ++ d ++ rest := h'.2.1.symm.trans h.2.1
  have hs : ∀ {x : Str}, (x = [] ∨ ∃ t, x = c!"/" :: t) → ∀ c, x.head? = some c → c = c!"/" := by
    rintro x (rfl | ⟨t, rfl⟩) c hc
    · cases hc
    · cases hc; rfl
  exact span_unique (stop := (· = c!"/")) (by simpa using e) (normDrive_slash h'.1) (normDrive_slash h.1) (hs h'.2.2) (hs h.2.2)

/-- C101. Every reference has one place. -/
theorem C101_place (special : Bool) (h : Spec.Rfc.Split) (r : Str) : ∃ part, Place special h r part ∧ ∀ part', Place special h r part' → part' = part := by
  have hu : ∀ {a c}, Place special h r a → Place special h r c → c = a := by
    intro a c ha hc
    cases ha with
    | scheme h1 =>
      cases hc with
      | scheme => rfl
      | root k1 k2 => exact absurd h1 (root_not_two k2)
      | directory k1 => exact absurd h1 (noSlash_not_two k1)
      | path r => exact absurd (question_noPath _) (two_noPath h1)
      | query k => exact absurd (noQuery_noPath k) (two_noPath h1)
    | root h1 h2 =>
      cases hc with
      | scheme k1 => exact absurd k1 (root_not_two h2)
      | root => rfl
      | directory k1 => exact absurd k1 (noSlash_cons h1)
      | path r => exact absurd (question_noPath []) (slash_noPath h1)
      | query k => exact absurd (noQuery_noPath k) (slash_noPath h1)
    | directory h1 h2 =>
      cases hc with
      | scheme k1 => exact absurd k1 (noSlash_not_two h1)
      | root k1 => exact absurd h1 (noSlash_cons k1)
      | directory => rfl
      | path r => exact absurd (question_noPath _) h2
      | query k => exact absurd (noQuery_noPath k) h2
    | path r =>
      cases hc with
      | scheme k1 => exact absurd (question_noPath _) (two_noPath k1)
      | root k1 => exact absurd (question_noPath []) (slash_noPath k1)
      | directory _ k2 => exact absurd (question_noPath _) k2
      | path => rfl
      | query k => exact absurd (k _ rfl) (by decide)
    | query h1 =>
      cases hc with
      | scheme k1 => exact absurd (noQuery_noPath h1) (two_noPath k1)
      | root k1 => exact absurd (noQuery_noPath h1) (slash_noPath k1)
      | directory _ k2 => exact absurd (noQuery_noPath h1) k2
      | path => exact absurd (h1 _ rfl) (by decide)
      | query => rfl
  obtain ⟨part, hp⟩ : ∃ part, Place special h r part := by
    rcases noSlash_or special r with ⟨s, t, rfl, h1⟩ | h1
    · rcases noSlash_or special t with ⟨s2, t2, rfl, h2⟩ | h2
      · exact ⟨_, .scheme ⟨s, s2, t2, rfl, h1, h2⟩⟩
      · exact ⟨_, .root h1 h2⟩
    · rcases path_or r with h2 | ⟨t, rfl⟩ | h2
      · exact ⟨_, .directory h1 h2⟩
      · exact ⟨_, .path t⟩
      · exact ⟨_, .query h2⟩
  exact ⟨part, hp, fun _ h => hu hp h⟩

example : Place true (split u!"http://h/a/b?q#f") u!"?x" u!"http://h/a/b" ∧ Place true (split u!"http://h/a/b?q#f") u!"#x" u!"http://h/a/b?q" ∧
    Place true (split u!"http://h/a/b?q#f") u!"\\x" u!"http://h" ∧ Place true (split u!"http://h/a/b?q#f") u!"//x" u!"http:" :=
  ⟨.path _, .query (by rintro c ⟨⟩; rfl), .root (.inr ⟨rfl, rfl⟩) (by decide), .scheme ⟨_, _, _, rfl, .inl rfl, .inl rfl⟩⟩

/-- C101. Every reference to a file URL has one place, but the empty one has none. -/
theorem C101_filePlace (h : Spec.Rfc.Split) (r : Str) (hne : r ≠ []) : ∃ part, FilePlace h r part ∧ ∀ part', FilePlace h r part' → part' = part := by
  have hu : ∀ {a c}, FilePlace h r a → FilePlace h r c → c = a := by
    intro a c ha hc
    cases ha with
    | scheme h1 =>
      cases hc with
      | scheme => rfl
      | root k1 k2 => exact absurd h1 (root_not_two k2)
      | drive k1 k2 => exact absurd h1 (root_not_two k2)
      | directory k1 => exact absurd h1 (noSlash_not_two k1)
      | onlyDrive k1 => exact absurd h1 (noSlash_not_two k1)
      | ownDrive k1 => exact absurd h1 (noSlash_not_two k1)
      | path r => exact absurd (question_noPath _) (two_noPath h1)
      | query k => exact absurd (noQuery_noPath k) (two_noPath h1)
    | root h1 h2 h3 =>
      cases hc with
      | scheme k1 => exact absurd k1 (root_not_two h2)
      | root => rfl
      | drive k1 k2 k3 k4 => exact (h3.elim k3 fun h => h _ _ k4).elim
      | directory k1 => exact absurd k1 (noSlash_cons h1)
      | onlyDrive k1 => exact absurd k1 (noSlash_cons h1)
      | ownDrive k1 => exact absurd k1 (noSlash_cons h1)
      | path r => exact absurd (question_noPath []) (slash_noPath h1)
      | query k => exact absurd (noQuery_noPath k) (slash_noPath h1)
    | drive h1 h2 h3 h4 =>
      cases hc with
      | scheme k1 => exact absurd k1 (root_not_two h2)
      | root k1 k2 k3 => exact (k3.elim h3 fun h => h _ _ h4).elim
      | drive k1 k2 k3 k4 => rw [(onDrive_unique h4 k4).1]
      | directory k1 => exact absurd k1 (noSlash_cons h1)
      | onlyDrive k1 => exact absurd k1 (noSlash_cons h1)
      | ownDrive k1 => exact absurd k1 (noSlash_cons h1)
      | path r => exact absurd (question_noPath []) (slash_noPath h1)
      | query k => exact absurd (noQuery_noPath k) (slash_noPath h1)
    | directory h1 h2 h3 h4 =>
      cases hc with
      | scheme k1 => exact absurd k1 (noSlash_not_two h1)
      | root k1 => exact absurd h1 (noSlash_cons k1)
      | drive k1 => exact absurd h1 (noSlash_cons k1)
      | directory => rfl
      | onlyDrive k1 k2 k3 k4 => exact absurd k4 (h4 _)
      | ownDrive k1 k2 k3 => exact absurd k3 h3
      | path r => exact absurd (question_noPath _) h2
      | query k => exact absurd (noQuery_noPath k) h2
    | onlyDrive h1 h2 h3 h4 =>
      cases hc with
      | scheme k1 => exact absurd k1 (noSlash_not_two h1)
      | root k1 => exact absurd h1 (noSlash_cons k1)
      | drive k1 => exact absurd h1 (noSlash_cons k1)
      | directory k1 k2 k3 k4 => exact absurd h4 (k4 _)
      | onlyDrive => rfl
      | ownDrive k1 k2 k3 => exact absurd k3 h3
      | path r => exact absurd (question_noPath _) h2
      | query k => exact absurd (noQuery_noPath k) h2
    | ownDrive h1 h2 h3 =>
      cases hc with
      | scheme k1 => exact absurd k1 (noSlash_not_two h1)
      | root k1 => exact absurd h1 (noSlash_cons k1)
      | drive k1 => exact absurd h1 (noSlash_cons k1)
      | directory k1 k2 k3 k4 => exact absurd h3 k3
      | onlyDrive k1 k2 k3 => exact absurd h3 k3
      | ownDrive => rfl
      | path r => exact absurd (question_noPath _) h2
      | query k => exact absurd (noQuery_noPath k) h2
    | path r =>
      cases hc with
      | scheme k1 => exact absurd (question_noPath _) (two_noPath k1)
      | root k1 => exact absurd (question_noPath []) (slash_noPath k1)
      | drive k1 => exact absurd (question_noPath []) (slash_noPath k1)
      | directory _ k2 => exact absurd (question_noPath _) k2
      | onlyDrive _ k2 => exact absurd (question_noPath _) k2
      | ownDrive _ k2 => exact absurd (question_noPath _) k2
      | path => rfl
      | query k => exact absurd (k _ rfl) (by decide)
    | query h1 =>
      cases hc with
      | scheme k1 => exact absurd (noQuery_noPath h1) (two_noPath k1)
      | root k1 => exact absurd (noQuery_noPath h1) (slash_noPath k1)
      | drive k1 => exact absurd (noQuery_noPath h1) (slash_noPath k1)
      | directory _ k2 => exact absurd (noQuery_noPath h1) k2
      | onlyDrive _ k2 => exact absurd (noQuery_noPath h1) k2
      | ownDrive _ k2 => exact absurd (noQuery_noPath h1) k2
      | path => exact absurd (h1 _ rfl) (by decide)
      | query => rfl
  obtain ⟨part, hp⟩ : ∃ part, FilePlace h r part := by
    rcases noSlash_or true r with ⟨s, t, rfl, h1⟩ | h1
    · rcases noSlash_or true t with ⟨s2, t2, rfl, h2⟩ | h2
      · exact ⟨_, .scheme ⟨s, s2, t2, rfl, h1, h2⟩⟩
      · by_cases h3 : DriveFirst (refPath t)
        · exact ⟨_, .root h1 h2 (.inl h3)⟩
        · by_cases h4 : ∃ d rest, OnDrive h.path d rest
          · obtain ⟨d, rest, h4⟩ := h4
            exact ⟨_, .drive h1 h2 h3 h4⟩
          · exact ⟨_, .root h1 h2 (.inr fun d rest h => h4 ⟨d, rest, h⟩)⟩
    · rcases path_or r with h2 | ⟨t, rfl⟩ | h2
      · by_cases h3 : DriveFirst (refPath r)
        · exact ⟨_, .ownDrive h1 h2 h3⟩
        · by_cases h4 : ∃ d, OnDrive h.path d []
          · obtain ⟨d, h4⟩ := h4
            exact ⟨_, .onlyDrive h1 h2 h3 h4⟩
          · exact ⟨_, .directory h1 h2 h3 fun d h => h4 ⟨d, h⟩⟩
      · exact ⟨_, .path t⟩
      · exact ⟨_, .query h2 hne⟩
  exact ⟨part, hp, fun _ h => hu hp h⟩

/-- a drive letter of its own takes the place of the other; "C|?" has one, too -/
example : FilePlace (split u!"file:///C:/a") u!"D|?x" u!"file:///" ∧ FilePlace (split u!"file:///C:") u!"b" u!"file:///C:/" :=
  ⟨.ownDrive (by decide) (fun h => absurd (h _ rfl) (by decide)) (by decide),
    .onlyDrive (d := u!"C:") (by decide) (fun h => absurd (h _ rfl) (by decide)) (by decide) ⟨by decide, by decide, .inl rfl⟩⟩

/-- C101. A URL whose href begins with the part of the base's is what the rest of its href refers to. -/
theorem C101_rest (env : Env) (hi : IdnaOK env) (b u : Rec) (h : Parsed env b) (hb : (parseUrl env b.serialize).res = .ok b) (ho : isOpaque b = false)
    (hf : b.scheme ≠ u!"file") (hu : (parseUrl env u.serialize).res = .ok u) {r part : Str} (he : u.serialize = part ++ r) (hs : Spec.Clean r)
    (hh : ∀ c, r.head? = some c → ¬ C0OrSpace c) (hn : ¬ HasScheme r) (hp : Place (isSpecial b.scheme) (split b.serialize) r part) :
    (parseUrl env r (.record b)).res = .ok u := by
  have e : dropTabs (stripC0 r) = r := by rw [prepared_std]; exact trimmed_prepared ⟨hs, hh⟩
  rw [C101_reference env hi b h hb ho hf r hs.1 (r := r) (part := part) (.inl ⟨by rw [e]; exact hn, e.symm⟩) hp, ← he, hu]

/-- "http://u:p@ex.com:8080/a/q?x" is "q?x" against "http://u:p@ex.com:8080/a/c%20d?…" -/
example : (parseUrl exEnv u!"q?x" (.record exRecord)).res = .ok { exRecord with path := .list [u!"a", u!"q"], query := some u!"x", fragment := none } :=
  C101_rest exEnv exEnv_idna exRecord _ exRecord_parsed ex_again rfl (by decide) (by decide +kernel) (r := u!"q?x")
    (part := u!"http://u:p@ex.com:8080/a/") (by decide +kernel) (by decide) (by decide) (noScheme_of (by decide))
    (.directory (r := u!"q?x") (by decide) fun h => absurd (h _ rfl) (by decide))

end Urlstd.Props
