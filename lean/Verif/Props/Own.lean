/-
Property C102: the text `pathname + search + hash` of a URL leads back to it.
-/
import Verif.Lemmas.Own
import Verif.Lemmas.OddText
import Verif.Props.Place

namespace Urlstd.Props

open Spec (IsStr Denotes FileText Relative tailText TailOK SameAuthority OnDrive isOpaque HasScheme C0OrSpace)

variable {env : Env}

theorem own_prepared {u : Rec} (hw : WF true (HostWF env) u) {p : List Str} (hp : u.path = .list p) :
    Trimmed (tailText (serializePath u.path) (ownShown u.query) (ownShown u.fragment)) := by
  have h := own_print hw hp
  generalize tailText (serializePath u.path) (ownShown u.query) (ownShown u.fragment) = T at h
  cases T with
  | nil => exact ⟨⟨by decide, by decide, by decide⟩, by decide⟩
  | cons c t =>
    have := trimmed_front (a := c :: t) (r := []) (by simp) h ⟨by decide, by decide, by decide⟩
    rwa [List.append_nil] at this

/-- the prefix as a list -/
theorem own_prefix {s : Str} : (∀ t, s ≠ c!"/" :: c!"/" :: t) ↔ ¬ u!"//" <+: s := by
  constructor
  · rintro h ⟨t, rfl⟩
    exact h t rfl
  · rintro h t rfl
    exact h ⟨t, rfl⟩

theorem own_eq {u : Rec} {P : Path} : ({ u with path := P, query := ownShown u.query, fragment := ownShown u.fragment } : Rec) = u ↔
    P = u.path ∧ u.query ≠ some [] ∧ u.fragment ≠ some [] := by
  rw [← ownShown_eq, ← ownShown_eq]
  cases u
  simp

/-- C102. The path, the query and the fragment of a URL as its properties show them, as a reference to any URL with the same authority. -/
theorem C102_root (env : Env) (hi : IdnaOK env) (o : URLObj) (b : Rec) (h : Parsed env o.url) (ho : isOpaque o.url = false) (hob : isOpaque b = false)
    (hs : SameAuthority o.url b) (hf : o.protocol ≠ u!"file:") (hne : o.pathname ≠ []) :
    (parseUrl env (o.pathname ++ o.search ++ o.hash) (.record b)).res = .ok o.url ↔
      ¬ u!"//" <+: o.pathname ∧ o.url.query ≠ some [] ∧ o.url.fragment ≠ some [] := by
  have hw : WF true (HostWF env) o.url := h.wf (hostSpec_wf hi)
  obtain ⟨p, hp⟩ := list_of_notOpaque ho
  obtain ⟨pb, hpb⟩ := list_of_notOpaque hob
  have hfb : b.scheme ≠ u!"file" := by
    intro e
    refine hf ?_
    show o.url.scheme ++ u!":" = _
    rw [hs.1, e]
    rfl
  have ht := own_prepared hw hp
  obtain ⟨w, hslash⟩ : ∃ w, tailText (serializePath o.url.path) (ownShown o.url.query) (ownShown o.url.fragment) = c!"/" :: w := by
    rw [tailText_eq]
    change serializePath o.url.path ≠ [] at hne
    rw [hp] at hne ⊢
    cases p with
    | nil => exact absurd rfl hne
    | cons s ps => exact ⟨_, rfl⟩
  have hns : ¬ HasScheme (tailText (serializePath o.url.path) (ownShown o.url.query) (ownShown o.url.fragment)) := by
    rw [hslash]
    exact hasScheme_slash
  rw [own_text]
  show _ ↔ ¬ u!"//" <+: serializePath o.url.path ∧ _
  by_cases h2 : u!"//" <+: serializePath o.url.path
  · obtain ⟨t, ht2⟩ := h2
    obtain ⟨x, hx⟩ := relative_total env hpb (tailText (serializePath o.url.path) (ownShown o.url.query) (ownShown o.url.fragment))
    have h3 := denotes_sound (.reference _ b pb x hns rfl hpb hfb hx) ht
    rw [show (parseUrl env _ (.record b)).res = x from h3]
    have h4 := own_two hw hs.1 (t := t) hp ht2.symm rfl hx
    constructor
    · intro h5; exact absurd h5 h4
    · intro h5; exact absurd ⟨t, ht2⟩ h5.1
  · have hpne : p ≠ [] := by
      rintro rfl
      refine hne ?_
      show serializePath o.url.path = []
      rw [hp]
      rfl
    have h3 := denotes_sound (.reference _ b pb _ hns rfl hpb hfb (own_relative hw hs hfb hp hpne (own_prefix.2 h2))) ht
    rw [show (parseUrl env _ (.record b)).res = _ from h3, Except.ok.injEq, show ({ o.url with query := _, fragment := _ } : Rec) = { o.url with path := o.url.path, query := ownShown o.url.query, fragment := ownShown o.url.fragment } from rfl, own_eq]
    simp [h2]

/-- "http://u:p@ex.com:8080/a/c%20d?…" leads back to itself from "http://u:p@ex.com:8080/k" -/
example : (parseUrl exEnv (URLObj.pathname ⟨exRecord, []⟩ ++ URLObj.search ⟨exRecord, []⟩ ++ URLObj.hash ⟨exRecord, []⟩)
    (.record { exRecord with path := .list [u!"k"], query := none })).res = .ok exRecord :=
  (C102_root exEnv exEnv_idna ⟨exRecord, []⟩ { exRecord with path := .list [u!"k"], query := none } exRecord_parsed rfl rfl
    ⟨rfl, rfl, rfl, rfl, rfl⟩ (by decide) (by decide)).2 (by decide)

/-- "http://ex.com//x" does not: "//x" is a host -/
theorem exTwo : Parsed exEnv { scheme := u!"http", host := some (.str u!"ex.com"), path := .list [[], u!"x"] } :=
  .alone (s := u!"http://ex.com//x") (e := .utf8) (by decide) trivial (by decide +kernel)

example : (parseUrl exEnv u!"//x" (.record { scheme := u!"http", host := some (.str u!"ex.com"), path := .list [[], u!"x"] })).res ≠
    .ok { scheme := u!"http", host := some (.str u!"ex.com"), path := .list [[], u!"x"] } :=
  fun h => ((C102_root exEnv exEnv_idna ⟨{ scheme := u!"http", host := some (.str u!"ex.com"), path := .list [[], u!"x"] }, []⟩ _ exTwo rfl rfl
    ⟨rfl, rfl, rfl, rfl, rfl⟩ (by decide) (by decide)).1 h).1 (by decide)

/-- the path as it is written for a file URL -/
theorem own_written {u : Rec} (hw : WF true (HostWF env) u) (hf : u.scheme = u!"file") {p : List Str} (hp : u.path = .list p) :
    writtenPath u = serializePath u.path := by
  rw [written_flat hp, file_dots hw hf, hp]
  rfl

theorem own_onDrive {u : Rec} (hw : WF true (HostWF env) u) (hf : u.scheme = u!"file") {p : List Str} (hp : u.path = .list p) :
    (∃ d rest, OnDrive (serializePath u.path) d rest) ↔ p.head?.any Spec.isNormDrive = true := by
  rw [← own_written hw hf hp]
  constructor
  · rintro ⟨d, rest, h⟩
    obtain ⟨h1, ps, rfl, -⟩ := (onDrive_iff hw hf hp).1 h
    exact h1
  · intro h
    cases p with
    | nil => cases h
    | cons d ps => exact ⟨d, _, (onDrive_iff hw hf hp).2 ⟨h, ps, rfl, rfl⟩⟩

theorem own_file_list {u : Rec} (hw : WF true (HostWF env) u) (hf : u.scheme = u!"file") : ∃ p, u.path = .list p := by
  refine list_of_notOpaque ?_
  unfold isOpaque
  split
  · next hq =>
    have := hw.path
    unfold PathWF at this
    rw [hq] at this
    exact absurd this.2 (hw.auth.special (by rw [← isSpecial_rec, hf]; decide)).1
  · rfl

/-- C102. The same for file URLs; the drive letter of the base must not get in. -/
theorem C102_file (env : Env) (hi : IdnaOK env) (o : URLObj) (b : Rec) (h : Parsed env o.url) (hb : Parsed env b) (hf : o.url.scheme = u!"file")
    (hfb : b.scheme = u!"file") (hh : o.url.host = b.host) :
    (parseUrl env (o.pathname ++ o.search ++ o.hash) (.record b)).res = .ok o.url ↔
      ¬ u!"//" <+: o.pathname ∧ ((∃ d rest, OnDrive (serializePath b.path) d rest) → ∃ d rest, OnDrive o.pathname d rest) ∧
      o.url.query ≠ some [] ∧ o.url.fragment ≠ some [] := by
  have hw : WF true (HostWF env) o.url := h.wf (hostSpec_wf hi)
  have hwb : WF true (HostWF env) b := hb.wf (hostSpec_wf hi)
  obtain ⟨p, hp⟩ := own_file_list hw hf
  obtain ⟨pb, hpb⟩ := own_file_list hwb hfb
  have ht := own_prepared hw hp
  have hpne : p ≠ [] := (pathWF_list hw hp).2.1 (by rw [← isSpecial_rec, hf]; decide)
  obtain ⟨w, hslash⟩ : ∃ w, tailText (serializePath o.url.path) (ownShown o.url.query) (ownShown o.url.fragment) = c!"/" :: w := by
    rw [tailText_eq, hp]
    cases p with
    | nil => exact absurd rfl hpne
    | cons s ps => exact ⟨_, rfl⟩
  have hns : ¬ HasScheme (tailText (serializePath o.url.path) (ownShown o.url.query) (ownShown o.url.fragment)) := by
    rw [hslash]
    exact hasScheme_slash
  rw [own_text, own_onDrive hwb hfb hpb]
  show _ ↔ ¬ u!"//" <+: serializePath o.url.path ∧ (_ → ∃ d rest, OnDrive (serializePath o.url.path) d rest) ∧ _
  rw [own_onDrive hw hf hp]
  by_cases h2 : u!"//" <+: serializePath o.url.path
  · obtain ⟨t, ht2⟩ := h2
    obtain ⟨x, hx⟩ := file_total env (base := some b) (by rintro _ ⟨⟩ _; exact ⟨pb, hpb⟩)
      (tailText (serializePath o.url.path) (ownShown o.url.query) (ownShown o.url.fragment))
    have h3 := denotes_sound (.fileBase _ b pb x hns rfl hpb hfb hx) ht
    rw [show (parseUrl env _ (.record b)).res = x from h3]
    have h4 := own_fileTwo hw hfb hf (t := t) hp ht2.symm rfl hx
    constructor
    · intro h5; exact absurd h5 h4
    · intro h5; exact absurd ⟨t, ht2⟩ h5.1
  · have h3 := denotes_sound (.fileBase _ b pb _ hns rfl hpb hfb (own_fileRooted hw hwb hfb hf hh hp hpb (own_prefix.2 h2))) ht
    rw [show (parseUrl env _ (.record b)).res = _ from h3, Except.ok.injEq, own_eq, hp, Path.list.injEq, List.append_left_eq_self]
    have e : (pb.take 1).filter (fun d => Spec.isNormDrive d && !(p.head?.any Spec.isNormDrive)) = [] ↔
        (pb.head?.any Spec.isNormDrive = true → p.head?.any Spec.isNormDrive = true) := by
      cases pb with
      | nil => simp
      | cons d ps =>
        cases hd : Spec.isNormDrive d <;> cases p.head?.any Spec.isNormDrive <;> simp [hd]
    rw [e]
    exact ⟨fun h => ⟨hp ▸ h2, h⟩, fun h => h.2⟩

theorem exDrive : Parsed exEnv (Spec.fileURL (some (.str [])) [u!"C:", u!"a"] none none) :=
  .alone (s := u!"file:///C|/a") (e := .utf8) (by decide) trivial (by decide +kernel)
theorem exNoDrive : Parsed exEnv (Spec.fileURL (some (.str [])) [u!"a", u!"b"] (some u!"q") none) :=
  .alone (s := u!"file:///a/b?q") (e := .utf8) (by decide) trivial (by decide +kernel)

/-- "/C:/a" leads back to "file:///C:/a" from everywhere -/
example : (parseUrl exEnv u!"/C:/a" (.record (Spec.fileURL (some (.str [])) [u!"a", u!"b"] (some u!"q") none))).res =
    .ok (Spec.fileURL (some (.str [])) [u!"C:", u!"a"] none none) :=
  (C102_file exEnv exEnv_idna ⟨Spec.fileURL (some (.str [])) [u!"C:", u!"a"] none none, []⟩ _ exDrive exNoDrive rfl rfl rfl).2
    ⟨by decide, fun _ => ⟨u!"C:", u!"/a", by decide, by decide, .inr ⟨_, rfl⟩⟩, by decide, by decide⟩

/-- "/a/b?q" does not lead back to "file:///a/b?q" from "file:///C:/a" -/
example : (parseUrl exEnv u!"/a/b?q" (.record (Spec.fileURL (some (.str [])) [u!"C:", u!"a"] none none))).res ≠
    .ok (Spec.fileURL (some (.str [])) [u!"a", u!"b"] (some u!"q") none) := by
  intro h
  obtain ⟨d, rest, h1, h2, -⟩ := ((C102_file exEnv exEnv_idna ⟨Spec.fileURL (some (.str [])) [u!"a", u!"b"] (some u!"q") none, []⟩ _ exNoDrive exDrive
    rfl rfl rfl).1 h).2.1 ⟨u!"C:", u!"/a", by decide, by decide, .inr ⟨_, rfl⟩⟩
  obtain ⟨a, rfl⟩ : ∃ a, d = [a, c!":"] := by
    unfold Spec.isNormDrive at h1
    split at h1
    · simp only [Bool.and_eq_true, beq_iff_eq] at h1
      exact ⟨_, by rw [h1.2]⟩
    · cases h1
  injection h2 with _ h2
  injection h2 with _ h2
  injection h2 with h2 _
  exact absurd h2 (by decide)

/-- C102. With the URL itself as the base, for any scheme. -/
theorem C102_self (env : Env) (hi : IdnaOK env) (o : URLObj) (h : Parsed env o.url) (ho : isOpaque o.url = false) :
    (parseUrl env (o.pathname ++ o.search ++ o.hash) (.record o.url)).res = .ok o.url ↔
      ¬ u!"//" <+: o.pathname ∧ (o.url.query = some [] → o.pathname = []) ∧ o.url.fragment ≠ some [] := by
  by_cases hf : o.url.scheme = u!"file"
  · rw [C102_file env hi o o.url h h hf hf rfl]
    have hw : WF true (HostWF env) o.url := h.wf (hostSpec_wf hi)
    obtain ⟨p, hp⟩ := own_file_list hw hf
    have hpne : p ≠ [] := (pathWF_list hw hp).2.1 (by rw [← isSpecial_rec, hf]; decide)
    have hne : o.pathname ≠ [] := by
      show serializePath o.url.path ≠ []
      rw [hp]
      cases p with
      | nil => exact absurd rfl hpne
      | cons s ps => exact fun e => by cases e
    simp only [hne, imp_false]
    exact ⟨fun h => ⟨h.1, h.2.2⟩, fun h => ⟨h.1, id, h.2⟩⟩
  · by_cases hne : o.pathname = []
    · have hw : WF true (HostWF env) o.url := h.wf (hostSpec_wf hi)
      obtain ⟨p, hp⟩ := list_of_notOpaque ho
      have ht := own_prepared hw hp
      have e0 : serializePath o.url.path = [] := hne
      rw [own_text]
      rw [e0] at ht ⊢
      have hns : ¬ HasScheme (tailText [] (ownShown o.url.query) (ownShown o.url.fragment)) := by
        rintro ⟨sc, rest, ⟨c, cs, rfl, hl, -⟩, e⟩
        cases hq : ownShown o.url.query with
        | some q =>
          rw [hq] at e
          injection e with e1
          rw [← e1] at hl
          exact absurd hl (by decide)
        | none =>
          rw [hq] at e
          cases hq2 : ownShown o.url.fragment with
          | some q =>
            rw [hq2] at e
            injection e with e1
            rw [← e1] at hl
            exact absurd hl (by decide)
          | none =>
            rw [hq2] at e
            cases e
      have h3 := denotes_sound (.reference _ o.url p _ hns rfl hp hf
        (.same (env := env) (ownShown o.url.query) (ownShown o.url.fragment) ⟨by simp, ownShown_query hw⟩)) ht
      rw [show (parseUrl env _ (.record o.url)).res = _ from h3, Except.ok.injEq, ownShown_map (query_written hw), ownShown_map (fragment_written hw)]
      have e1 : (ownShown o.url.query).or o.url.query = o.url.query := by
        cases hq : o.url.query with
        | none => rfl
        | some q => cases q <;> rfl
      rw [e1, hne]
      have e2 : ({ o.url with query := o.url.query, fragment := ownShown o.url.fragment } : Rec) = o.url ↔ o.url.fragment ≠ some [] := by
        rw [← ownShown_eq]
        cases o.url
        simp
      rw [e2]
      simp
    · rw [C102_root env hi o o.url h ho ho ⟨rfl, rfl, rfl, rfl, rfl⟩ (fun e => hf ?_) hne]
      · simp only [hne, imp_false]
      · change o.url.scheme ++ u!":" = u!"file" ++ u!":" at e
        exact List.append_cancel_right e

/-- "sc://h?", whose pathname is empty, is the reference "" to itself -/
example : (parseUrl exEnv [] (.record { scheme := u!"sc", host := some (.str u!"h"), query := some [] })).res =
    .ok { scheme := u!"sc", host := some (.str u!"h"), query := some [] } :=
  (C102_self exEnv exEnv_idna ⟨{ scheme := u!"sc", host := some (.str u!"h"), query := some [] }, []⟩
    (.alone (s := u!"sc://h?") (e := .utf8) (by decide) trivial (by decide +kernel)) rfl).2 (by decide)

/-- "http://ex.com/?" is not what "/" gives against it -/
example : (parseUrl exEnv u!"/" (.record { scheme := u!"http", host := some (.str u!"ex.com"), path := .list [[]], query := some [] })).res ≠
    .ok { scheme := u!"http", host := some (.str u!"ex.com"), path := .list [[]], query := some [] } :=
  fun h => absurd (((C102_self exEnv exEnv_idna
    ⟨{ scheme := u!"http", host := some (.str u!"ex.com"), path := .list [[]], query := some [] }, []⟩
    (.alone (s := u!"http://ex.com/?") (e := .utf8) (by decide) trivial (by decide +kernel)) rfl).1 h).2.1 rfl) (by decide)

/-- C102. The href without its scheme, as a reference to any URL with the same scheme. -/
theorem C102_scheme (env : Env) (he : EnvOK env) (hi : IdnaOK env) (o : URLObj) (b : Rec) (h : Parsed env o.url) (hh : o.url.host ≠ none)
    (hob : isOpaque b = false) (hs : o.url.scheme = b.scheme) {w : Str} (e : o.href = o.protocol ++ w) :
    (parseUrl env w (.record b)).res = .ok o.url ↔ ∀ n, o.url.host = some (.ipv4 n) → n < 2 ^ 32 := by
  have hw : WF true (HostWF env) o.url := h.wf (hostSpec_wf hi)
  obtain ⟨pb, hpb⟩ := list_of_notOpaque hob
  obtain ⟨p, hp⟩ : ∃ p, o.url.path = .list p := by
    refine list_of_notOpaque ?_
    unfold isOpaque
    split
    · next hq =>
      have := hw.path
      unfold PathWF at this
      rw [hq] at this
      exact absurd this.2 hh
    · rfl
  rw [← C30_exact env he hi o.url h]
  suffices hsuff : (parseUrl env w (.record b)).res = (parseUrl env o.url.serialize).res by rw [hsuff]
  obtain ⟨v, rfl⟩ : ∃ v, w = u!"//" ++ v := by
    cases hv : o.url.host with
    | none => exact absurd hv hh
    | some x =>
      change o.url.serialize = o.url.scheme ++ u!":" ++ w at e
      unfold Rec.serialize at e
      rw [hv] at e
      simp only [List.append_assoc] at e
      exact ⟨_, (List.append_cancel_left (List.append_cancel_left e)).symm⟩
  have hpr : ∀ c ∈ o.url.serialize, 32 < c ∧ c ≤ 126 := by
    intro c hc
    rw [serialize_split, List.mem_append, List.mem_append] at hc
    rcases hc with (hc | hc) | hc
    · exact hw.beforePath_print c hc
    · exact hw.listPath_print hp c hc
    · exact hw.afterPath_print c hc
  have hne : o.url.serialize ≠ [] := by
    change o.url.serialize = o.url.scheme ++ u!":" ++ (u!"//" ++ v) at e
    rw [e]
    simp
  have hclean : ∀ {s : Str}, s ≠ [] → (∀ c ∈ s, 32 < c ∧ c ≤ 126) → Trimmed s := by
    intro s h1 h2
    have := trimmed_front (a := s) (r := []) h1 h2 ⟨by decide, by decide, by decide⟩
    rwa [List.append_nil] at this
  have t1 := hclean hne hpr
  have t2 : Trimmed (u!"//" ++ v) := by
    refine hclean (by simp) fun c hc => hpr c ?_
    change o.url.serialize = o.url.scheme ++ u!":" ++ (u!"//" ++ v) at e
    rw [e]
    exact List.mem_append_right _ hc
  obtain ⟨n1, n2⟩ := schemeText_of_norm (C22_scheme_normalized env o.url h)
  have hns : ¬ HasScheme (u!"//" ++ v) := hasScheme_slash
  have e1 : o.url.serialize = o.url.scheme ++ u!"://" ++ v := by
    change o.url.serialize = o.url.scheme ++ u!":" ++ (u!"//" ++ v) at e
    rw [e]
    simp
  rw [e1] at t1 ⊢
  by_cases hf : b.scheme = u!"file"
  · obtain ⟨x, hx⟩ := file_total env (base := some b) (by rintro _ ⟨⟩ _; exact ⟨pb, hpb⟩) (u!"//" ++ v)
    have h3 := denotes_sound (.fileBase _ b pb x hns rfl hpb hf hx) t2
    have hx2 : FileText env none (u!"//" ++ v) x := by
      generalize hT : u!"//" ++ v = T at hx
      cases hx with
      | noHost s1 s2 path q f h1 h2 hs ok => exact .noHost s1 s2 path q f h1 h2 hs ok
      | host s1 s2 host path q f v h1 h2 hne hh hd hv hs ok => exact .host s1 s2 host path q f v h1 h2 hne hh hd hv hs ok
      | badHost s1 s2 host path q f e h1 h2 hne hh hd hv hs ok => exact .badHost s1 s2 host path q f e h1 h2 hne hh hd hv hs ok
      | drive s1 s2 host path q f h1 h2 hd hs ok => exact .drive s1 s2 host path q f h1 h2 hd hs ok
      | rooted s t' q f hs ht ok =>
        cases t' with
        | nil => cases q <;> cases f <;> simp [tailText] at hT
        | cons c t' =>
          have : c = 47 := by simp [tailText] at hT; exact hT.2.1.symm
          exact absurd (.inl this) (ht c rfl)
      | plain t' q f hb => exact absurd hf (hb b rfl)
      | path b' p' t' q f _ _ _ hne ht ok =>
        cases t' with
        | nil => exact absurd rfl hne
        | cons c t' =>
          have : c = 47 := by simp [tailText] at hT; exact hT.1.symm
          exact absurd (.inl this) (ht c rfl)
      | same b' q f => cases q <;> cases f <;> simp [tailText] at hT
      | empty => cases hT
    have h4 := Denotes.file (env := env) (base := none) o.url.scheme (u!"//" ++ v) x n1 (by rw [n2, hs, hf]) hx2
    have e2 : o.url.scheme ++ u!":" ++ (u!"//" ++ v) = o.url.scheme ++ u!"://" ++ v := by simp
    rw [e2] at h4
    rw [show (parseUrl env _ (.record b)).res = x from h3]
    exact (denotes_sound h4 t1).symm
  · cases hsp : Spec.isSpecial b.scheme with
    | true =>
      obtain ⟨sl, P, rfl, h3, ok⟩ := slashes_parts v
      have h4 := Denotes.reference (env := env) (base := some b) _ b pb _ hns rfl hpb hf
        (Relative.authority c!"/" c!"/" sl P (.inl rfl) (.inl rfl) (fun c hc => ⟨hsp, h3 c hc⟩) (by rw [hsp]; exact ok))
      have h5 := Denotes.specialSlashes (env := env) (base := none) o.url.scheme sl P n1 (by rw [n2, hs, hsp]) (by rw [n2, hs]; exact hf) h3 ok
      rw [n2, hs] at h5
      rw [hs] at t1 ⊢
      rw [show (parseUrl env _ (.record b)).res = _ from denotes_sound h4 t2]
      exact (denotes_sound h5 t1).symm
    | false =>
      obtain ⟨P, ok, rfl, -⟩ := C81_parts false v (by simp)
      have h4 := Denotes.reference (env := env) (base := some b) _ b pb _ hns rfl hpb hf
        (Relative.authority c!"/" c!"/" [] P (.inl rfl) (.inl rfl) (by simp) (by rw [hsp]; exact ok))
      have h5 := Denotes.authority (env := env) (base := none) o.url.scheme P n1 (by rw [n2, hs, hsp]) ok
      rw [n2, hs] at h5
      rw [hs] at t1 ⊢
      rw [show (parseUrl env _ (.record b)).res = _ from denotes_sound h4 t2]
      exact (denotes_sound h5 t1).symm

/-- "//ex.com//x" leads back to "http://ex.com//x" from every URL whose scheme is "http" -/
example : (parseUrl exEnv u!"//ex.com//x" (.record exRecord)).res =
    .ok { scheme := u!"http", host := some (.str u!"ex.com"), path := .list [[], u!"x"] } :=
  (C102_scheme exEnv (.inr (by decide)) exEnv_idna ⟨{ scheme := u!"http", host := some (.str u!"ex.com"), path := .list [[], u!"x"] }, []⟩ exRecord exTwo
    (by decide) rfl rfl (by decide)).2 fun n h => by cases h

end Urlstd.Props
