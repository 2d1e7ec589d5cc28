/-
The text `pathname + search + hash` of a URL as a reference (C102).
-/
import Verif.Lemmas.Place4
import Verif.Props.Anatomy2

namespace Urlstd

open Props (C82_tail)
open Spec (Relative FileText Denotes Slash NoSlash TailOK tailText Parts AuthorityEnd IsStr)

variable {env : Env}

/-- an empty query or fragment is not shown -/
def ownShown (x : Option Str) : Option Str := x.filter fun s => !s.isEmpty

theorem ownShown_eq {x : Option Str} : ownShown x = x ↔ x ≠ some [] := by
  unfold ownShown
  cases x with
  | none => simp
  | some s => cases s <;> simp

theorem ownShown_some {x : Option Str} {s : Str} (h : ownShown x = some s) : x = some s := by
  unfold ownShown at h
  exact (Option.filter_eq_some_iff.1 h).1

theorem ownShown_map {x : Option Str} {f : Str → Str} (h : x.map f = x) : (ownShown x).map f = ownShown x := by
  cases hx : ownShown x with
  | none => rfl
  | some s =>
    have e := ownShown_some hx
    rw [e] at h
    simpa using h

theorem own_text (o : URLObj) : o.pathname ++ o.search ++ o.hash = tailText (serializePath o.url.path) (ownShown o.url.query) (ownShown o.url.fragment) := by
  unfold URLObj.pathname URLObj.search URLObj.hash tailText ownShown
  congr 1
  · congr 1
    cases o.url.query with
    | none => rfl
    | some q => cases q <;> rfl
  · cases o.url.fragment with
    | none => rfl
    | some q => cases q <;> rfl

/-! ### Counting slashes -/

theorem segmentsOf_count (sp : Bool) (t : Str) : (Spec.segmentsOf sp t).length = t.countP (isPathSep sp) + 1 := by
  induction t with
  | nil => rfl
  | cons c cs ih =>
    unfold Spec.segmentsOf
    rw [List.countP_cons]
    by_cases h : c = c!"/" ∨ (sp = true ∧ c = c!"\\")
    · rw [if_pos h, if_pos (by unfold isPathSep; simpa using h), List.length_cons, ih]
    · rw [if_neg h, if_neg (by unfold isPathSep; simpa using h)]
      split
      · next e => rw [e] at ih; simp at ih
      · next e => rw [e] at ih; simpa using ih

theorem parent_count (file : Bool) (out : List Str) : (Spec.parent file out).length ≤ out.length := by
  unfold Spec.parent
  split
  · exact Nat.le_refl _
  · simp

theorem follow_count (file : Bool) (segs : List Str) : ∀ out : List Str, segs ≠ [] → (Spec.follow file out segs).length ≤ out.length + segs.length := by
  induction segs with
  | nil => intro out h; exact absurd rfl h
  | cons s ss ih =>
    intro out _
    have hp := parent_count file out
    cases ss with
    | nil =>
      unfold Spec.follow
      split
      · simp only [List.length_append, List.length_cons, List.length_nil]; omega
      · split <;> simp
    | cons t ts =>
      unfold Spec.follow
      refine Nat.le_trans (ih _ (by simp)) ?_
      simp only [List.length_cons]
      split
      · omega
      · split
        · omega
        · simp only [List.length_append, List.length_cons, List.length_nil]; omega

theorem followed_count (file sp : Bool) (out : List Str) (t : Str) :
    (Spec.follow file out (Spec.segmentsOf sp t)).length ≤ out.length + t.countP (isPathSep sp) + 1 := by
  have h := segmentsOf_count sp t
  have := follow_count file (Spec.segmentsOf sp t) out (fun e => by rw [e] at h; simp at h)
  omega

theorem pathOf_count {sc : Str} {t : Str} (h : ∀ c, t.head? = some c → Slash (Spec.isSpecial sc) c) :
    (Spec.pathOf sc t).length ≤ max 1 (t.countP (isPathSep (Spec.isSpecial sc))) := by
  cases t with
  | nil => show (if _ then _ else _ : List Str).length ≤ _; split <;> simp
  | cons c cs =>
    have h1 := followed_count (Spec.isFile sc) (Spec.isSpecial sc) [] cs
    have h2 : isPathSep (Spec.isSpecial sc) c = true := by
      have := h c rfl
      unfold isPathSep
      unfold Slash at this
      simpa using this
    rw [List.countP_cons, if_pos h2]
    show (Spec.follow _ [] _).length ≤ _
    simp at h1
    omega

theorem slash_sep {sp : Bool} {c : Nat} (h : Slash sp c) : isPathSep sp c = true := by
  unfold isPathSep
  unfold Slash at h
  simpa using h

/-- the slashes of a written path are as many as its segments -/
theorem written_count {sc : Str} {p : List Str} (h : ∀ s ∈ p, SegOK (isSpecialScheme sc) s) :
    (p.flatMap (c!"/" :: ·)).countP (isPathSep (Spec.isSpecial sc)) = p.length := by
  rw [← isSpecial_eq] at h
  induction p with
  | nil => rfl
  | cons s ss ih =>
    have hs : s.countP (isPathSep (Spec.isSpecial sc)) = 0 := by
      rw [List.countP_eq_zero]
      intro c hc
      have := ((h s (by simp)).chars c hc).2
      simp [this]
    rw [List.flatMap_cons, List.countP_append, ih fun s hs => h s (by simp [hs]), List.countP_cons, if_pos (slash_sep (.inl rfl)), hs]
    simp
    omega

theorem flat_tailOK {sc : Str} {p : List Str} (h : ∀ s ∈ p, SegOK (isSpecialScheme sc) s) {q : Option Str} (hq : ∀ x, q = some x → c!"#" ∉ x) :
    TailOK (p.flatMap (c!"/" :: ·)) q :=
  ⟨fun c hc => notQF_ne (notQF_segs h c hc), hq⟩

theorem ownShown_query {u : Rec} (hw : WF true (HostWF env) u) : ∀ x, ownShown u.query = some x → c!"#" ∉ x :=
  fun x hx => query_tailOK hw x (ownShown_some hx)

/-- a text with two parts and slashes in front is no reference to the URL it was made from, for it has fewer slashes behind -/
theorem own_fewer {u : Rec} (hw : WF true (HostWF env) u) {p : List Str} (hp : u.path = .list p) {s1 s2 : Nat} {r : Str} {q f : Option Str}
    (hs1 : Slash (Spec.isSpecial u.scheme) s1) (hs2 : Slash (Spec.isSpecial u.scheme) s2) (ok : TailOK r q)
    (e : tailText (serializePath u.path) (ownShown u.query) (ownShown u.fragment) = s1 :: s2 :: tailText r q f) :
    r.countP (isPathSep (Spec.isSpecial u.scheme)) + 2 = p.length := by
  have hs := (pathWF_list hw hp).1.segs
  rw [tail_cons, tail_cons] at e
  have ok2 := slash_tailOK hs1 (slash_tailOK hs2 ok)
  rw [hp] at e
  have := ((C82_tail []).2 _ _ _ _ _ _ e (flat_tailOK hs (ownShown_query hw)) ok2).1
  rw [← written_count hs]
  show _ = (serializePath (.list p)).countP _
  rw [this, List.countP_cons, List.countP_cons, if_pos (slash_sep hs1), if_pos (slash_sep hs2)]

theorem own_two {u b : Rec} (hw : WF true (HostWF env) u) (hsc : u.scheme = b.scheme) {t T : Str} {p : List Str} (hp : u.path = .list p)
    (hP : serializePath u.path = c!"/" :: c!"/" :: t) (hT : tailText (serializePath u.path) (ownShown u.query) (ownShown u.fragment) = T)
    {x : Except Err Rec} (hx : Relative env b T x) : x ≠ .ok u := by
  have hhead : ∃ w, T = c!"/" :: c!"/" :: w := ⟨t ++ tailStr (ownShown u.query) (ownShown u.fragment), by rw [← hT, tailText_eq, hP]; rfl⟩
  cases hx with
  | same q f ok =>
    obtain ⟨w, e⟩ := hhead
    cases q <;> cases f <;> simp [tailText] at e
  | path p' t' q f h1 hne ht ok =>
    obtain ⟨w, e⟩ := hhead
    cases t' with
    | nil => exact absurd rfl hne
    | cons c t' =>
      have : c = 47 := by simp [tailText] at e; exact e.1
      exact absurd (.inl this) (ht c rfl)
  | rooted s t' q f hs ht ok =>
    obtain ⟨w, e⟩ := hhead
    cases t' with
    | nil => cases q <;> cases f <;> simp [tailText] at e
    | cons c t' =>
      have : c = 47 := by simp [tailText] at e; exact e.2.1
      exact absurd (.inl this) (ht c rfl)
  | authority s1 s2 sl P h1 h2 hsl ok =>
    intro hu
    rw [text_split, ← List.append_assoc, ← List.append_assoc, ← tailText_eq] at hT
    rw [← hsc] at h1 h2 ok hu
    have hok : TailOK (sl ++ authorityText P.userinfo P.host P.port ++ P.path) P.query := by
      refine ⟨fun c hc => ?_, ok.query⟩
      rcases List.mem_append.1 hc with hc | hc
      · rcases List.mem_append.1 hc with hc | hc
        · rcases (hsl c hc).2 with rfl | ⟨-, rfl⟩ <;> decide
        · have := authorityText_end ok c hc
          exact ⟨fun h => this (.inr (.inl h)), fun h => this (.inr (.inr (.inl h)))⟩
      · exact ok.path c hc
    have h3 := own_fewer hw hp h1 h2 hok hT
    have h4 : u.path = .list (Spec.pathOf u.scheme P.path) := by
      unfold Parts.url at hu
      split at hu
      · cases hu
      · split at hu
        · cases hu
        · cases hu
        · injection hu with hu
          exact (congrArg Rec.path hu).symm
    rw [hp] at h4
    injection h4 with h4
    have h5 := pathOf_count ok.slash
    rw [← h4] at h5
    rw [List.countP_append] at h3
    omega

/-- no two slashes in front: a path from the root -/
theorem own_rooted {u : Rec} (hw : WF true (HostWF env) u) {p : List Str} (hp : u.path = .list p) (hne : p ≠ [])
    (h2 : ∀ t, serializePath u.path ≠ c!"/" :: c!"/" :: t) :
    ∃ t, serializePath u.path = c!"/" :: t ∧ NoSlash (Spec.isSpecial u.scheme) t ∧ (∀ q, (∀ x, q = some x → c!"#" ∉ x) → TailOK t q) ∧ IsStr t ∧
      Spec.segmentsOf (Spec.isSpecial u.scheme) t = p ∧ Spec.follow (Spec.isFile u.scheme) [] p = p := by
  have hs := (pathWF_list hw hp).1
  cases p with
  | nil => exact absurd rfl hne
  | cons s ps =>
    rw [hp] at h2 ⊢
    have e : serializePath (.list (s :: ps)) = c!"/" :: (s ++ ps.flatMap (c!"/" :: ·)) := rfl
    rw [e] at h2 ⊢
    have hok : ∀ q, (∀ x, q = some x → c!"#" ∉ x) → TailOK (s ++ ps.flatMap (c!"/" :: ·)) q := by
      intro q hq
      have := flat_tailOK hs.segs hq
      exact ⟨fun c hc => this.1 c (by
        show c ∈ serializePath (.list (s :: ps))
        rw [e]; exact List.mem_cons_of_mem _ hc), hq⟩
    refine ⟨_, rfl, ?_, hok, ?_, ?_, ?_⟩
    · intro c hc hsl
      cases s with
      | nil =>
        cases ps with
        | nil => cases hc
        | cons s2 ps => exact h2 _ rfl
      | cons d s =>
        cases hc
        have := ((hs.segs (c :: s) (by simp)).chars c (by simp)).2
        rw [← isSpecial_eq, slash_sep hsl] at this
        cases this
    · intro c hc
      have h3 : c ∈ (s :: ps).flatMap (c!"/" :: ·) := by
        show c ∈ serializePath (.list (s :: ps))
        rw [e]; exact List.mem_cons_of_mem _ hc
      simp only [List.mem_flatMap, List.mem_cons] at h3
      obtain ⟨a, ha, rfl | h4⟩ := h3
      · decide
      · exact segOK_isStr (hs.segs a (by simpa using ha)) c h4
    · have h4 : ∀ X : List Str, ∀ s : Str, (∀ a ∈ s :: X, ∀ c ∈ a, isPathSep (Spec.isSpecial u.scheme) c = false) →
          Spec.segmentsOf (Spec.isSpecial u.scheme) (s ++ X.flatMap (c!"/" :: ·)) = s :: X := by
        intro X
        induction X with
        | nil =>
          intro s h
          simp only [List.flatMap_nil, List.append_nil]
          rw [segmentsOf_eq]
          exact pathPieces_single (h s (by simp))
        | cons a X ih =>
          intro s h
          have ih := ih a fun b hb => h b (by simp at hb ⊢; exact .inr hb)
          have h5 := h s (by simp)
          clear h
          induction s with
          | nil =>
            show Spec.segmentsOf _ (c!"/" :: (a ++ X.flatMap (c!"/" :: ·))) = _
            rw [← ih]
            conv => lhs; unfold Spec.segmentsOf
            rw [if_pos (.inl rfl)]
          | cons d s ih2 =>
            have ih2 := ih2 fun c hc => h5 c (by simp [hc])
            have h6 := h5 d (by simp)
            show Spec.segmentsOf _ (d :: (s ++ (a :: X).flatMap (c!"/" :: ·))) = _
            conv => lhs; unfold Spec.segmentsOf
            rw [if_neg (by unfold isPathSep at h6; simpa using h6), ih2]
      exact h4 ps s fun a ha c hc => by rw [isSpecial_eq]; exact ((hs.segs a ha).chars c hc).2
    · rw [← addPieces_follow _ _ fun a ha => segOK_isStr (hs.segs a ha), addPieces_id _ (p := []) hs]
      rfl

theorem fragment_written {k : Bool} {u : Rec} (hw : WF k (HostWF env) u) : u.fragment.map Spec.fragmentEncode = u.fragment := by
  have h1 : ∀ x, u.fragment = some x → IsStr x := fun x hx c hc => by
    have := safeFragment_print (hw.frag x hx c hc)
    omega
  rw [← fragment_map_eq h1]
  cases hq : u.fragment with
  | none => rfl
  | some q => simp only [Option.map_some]; rw [fragment_fixed (hw.frag q hq)]

theorem own_print {u : Rec} (hw : WF true (HostWF env) u) {p : List Str} (hp : u.path = .list p) :
    ∀ c ∈ tailText (serializePath u.path) (ownShown u.query) (ownShown u.fragment), 32 < c ∧ c ≤ 126 := by
  intro c hc
  unfold tailText at hc
  rcases List.mem_append.1 hc with hc | hc
  · rcases List.mem_append.1 hc with hc | hc
    · exact hw.listPath_print hp c hc
    · cases hq : ownShown u.query with
      | none => rw [hq] at hc; cases hc
      | some q =>
        rw [hq] at hc
        rcases List.mem_cons.1 hc with rfl | hc
        · decide
        · exact querySafe_print (hw.query q (ownShown_some hq) c hc)
  · cases hq : ownShown u.fragment with
    | none => rw [hq] at hc; cases hc
    | some q =>
      rw [hq] at hc
      rcases List.mem_cons.1 hc with rfl | hc
      · decide
      · exact safeFragment_print (hw.frag q (ownShown_some hq) c hc)

/-- the path from the root, with the authority of the base -/
theorem own_relative {u b : Rec} (hw : WF true (HostWF env) u) (hs : Spec.SameAuthority u b) (hf : b.scheme ≠ u!"file") {p : List Str} (hp : u.path = .list p)
    (hne : p ≠ []) (h2 : ∀ t, serializePath u.path ≠ c!"/" :: c!"/" :: t) :
    Relative env b (tailText (serializePath u.path) (ownShown u.query) (ownShown u.fragment))
      (.ok { u with query := ownShown u.query, fragment := ownShown u.fragment }) := by
  obtain ⟨t, e, h3, h4, -, h5, h6⟩ := own_rooted hw hp hne h2
  obtain ⟨s1, s2, s3, s4, s5⟩ := hs
  have h7 := Relative.rooted (env := env) (b := b) c!"/" t (ownShown u.query) (ownShown u.fragment) (.inl rfl) (by rw [← s1]; exact h3) (h4 _ (ownShown_query hw))
  rw [tail_cons, ← e] at h7
  have e1 : Spec.follow false [] p = p := by
    have : Spec.isFile u.scheme = false := by
      unfold Spec.isFile
      rw [s1]
      simpa using hf
    rwa [this] at h6
  rw [← s1, h5, e1, ownShown_map (query_written hw), ownShown_map (fragment_written hw)] at h7
  rw [← s2, ← s3, ← s4, ← s5, ← hp] at h7
  exact h7

theorem own_fileRooted {u b : Rec} (hw : WF true (HostWF env) u) (hb : WF true (HostWF env) b) (hf : b.scheme = u!"file") (hfu : u.scheme = u!"file")
    (hh : u.host = b.host) {p pb : List Str} (hp : u.path = .list p) (hpb : b.path = .list pb) (h2 : ∀ t, serializePath u.path ≠ c!"/" :: c!"/" :: t) :
    FileText env (some b) (tailText (serializePath u.path) (ownShown u.query) (ownShown u.fragment))
      (.ok { u with
        path := .list ((pb.take 1).filter (fun d => Spec.isNormDrive d && !(p.head?.any Spec.isNormDrive)) ++ p)
        query := ownShown u.query, fragment := ownShown u.fragment }) := by
  have hsp : Spec.isSpecial u.scheme = true := by rw [hfu]; decide
  have hne : p ≠ [] := (pathWF_list hw hp).2.1 (by rw [← isSpecial_rec]; exact hsp)
  obtain ⟨t, e, h3, h4, -, h5, h6⟩ := own_rooted hw hp hne h2
  rw [hsp] at h3 h5
  have hseg := (pathWF_list hw hp).1
  have hsegb := (pathWF_list hb hpb).1
  have h7 := FileText.rooted (env := env) (base := some b) c!"/" t (ownShown u.query) (ownShown u.fragment) (.inl rfl) h3 (h4 _ (ownShown_query hw))
  have hq : (ownShown u.query).map (Spec.queryEncode true) = ownShown u.query := by
    have := query_written hw
    rw [hsp] at this
    exact ownShown_map this
  rw [tail_cons, ← e, h5] at h7
  unfold Spec.fileURL at h7
  rw [hq, ownShown_map (fragment_written hw)] at h7
  have e0 : Spec.inheritedHost (some b) = u.host := by
    unfold Spec.inheritedHost
    rw [hh]
    exact if_pos hf
  have hd : Spec.DriveFirst t ↔ p.head?.any Spec.isNormDrive = true := by
    unfold Spec.DriveFirst
    rw [h5]
    cases p with
    | nil => exact absurd rfl hne
    | cons d ps =>
      simp only [List.head?_cons, Option.any_some]
      constructor
      · rintro ⟨d', h1, h2⟩
        cases h1
        rw [isNormDrive_eq]
        exact hseg.drive rfl hfu d rfl (by rw [← isDrive_eq]; exact h2)
      · intro h
        refine ⟨d, rfl, ?_⟩
        rw [isNormDrive_eq] at h
        rw [isDrive_eq]
        unfold isNormalizedWindowsDriveLetter at h
        simp only [Bool.and_eq_true] at h
        exact h.1
  have e1 : Spec.inheritedDrive (some b) t = (pb.take 1).filter (fun d => Spec.isNormDrive d && !(p.head?.any Spec.isNormDrive)) := by
    unfold Spec.inheritedDrive
    simp only
    rw [hpb]
    cases pb with
    | nil => rfl
    | cons d ps =>
      simp only
      by_cases h1 : Spec.isNormDrive d = true
      · by_cases h8 : Spec.DriveFirst t
        · rw [if_neg (fun h => h.2.2 h8)]
          simp [hd.1 h8]
        · rw [if_pos ⟨hf, h1, h8⟩]
          rw [hd] at h8
          simp [h1, h8]
      · rw [if_neg (fun h => h1 h.2.1)]
        simp [h1]
  rw [e0, e1] at h7
  have e2 : Spec.follow true ((pb.take 1).filter (fun d => Spec.isNormDrive d && !(p.head?.any Spec.isNormDrive))) p =
      (pb.take 1).filter (fun d => Spec.isNormDrive d && !(p.head?.any Spec.isNormDrive)) ++ p := by
    have h8 := addPieces_follow u!"file" p (fun a ha => segOK_isStr (hseg.segs a ha))
      ((pb.take 1).filter (fun d => Spec.isNormDrive d && !(p.head?.any Spec.isNormDrive)))
    rw [show Spec.isFile u!"file" = true from rfl] at h8
    rw [← h8]
    rw [hfu] at hseg
    rw [hf] at hsegb
    refine addPieces_id p ⟨?_, ?_⟩
    · intro s hs
      rcases List.mem_append.1 hs with hs | hs
      · exact hsegb.segs s (List.mem_of_mem_take (List.mem_filter.1 hs).1)
      · exact hseg.segs s hs
    · intro _ _ s hs hw
      cases hl : (pb.take 1).filter (fun d => Spec.isNormDrive d && !(p.head?.any Spec.isNormDrive)) with
      | nil =>
        rw [hl] at hs
        exact hseg.drive rfl rfl s hs hw
      | cons d ds =>
        rw [hl] at hs
        cases hs
        have : s ∈ (pb.take 1).filter (fun d => Spec.isNormDrive d && !(p.head?.any Spec.isNormDrive)) := by rw [hl]; simp
        have := (List.mem_filter.1 this).2
        simp only [Bool.and_eq_true] at this
        rw [← isNormDrive_eq]
        exact this.1
  rw [e2] at h7
  obtain ⟨k1, k2, k3⟩ := hw.auth.bare (.inr (.inr hfu))
  have e3 : ∀ P q f, ({ scheme := u!"file", host := u.host, path := P, query := q, fragment := f } : Rec) =
      { u with path := P, query := q, fragment := f } := by
    intro P q f
    cases u
    simp only at k1 k2 k3 hfu
    subst k1 k2 k3 hfu
    rfl
  rwa [e3] at h7

theorem drive_end {d : Str} (h : Spec.isDrive d = true) : ∀ c ∈ d, ¬ AuthorityEnd true c := by
  unfold Spec.isDrive at h
  split at h
  · rename_i a b
    simp only [Bool.and_eq_true, Bool.or_eq_true, beq_iff_eq] at h
    intro c hc he
    simp only [List.mem_cons, List.not_mem_nil, or_false] at hc
    obtain ⟨h1, h2⟩ := h
    rw [letter_eq, isAlpha_iff] at h1
    simp only [AuthorityEnd, true_and] at he
    rcases hc with rfl | rfl
    · unfold Spec.Letter at h1; omega
    · omega
  · cases h

theorem own_fileTwo {u b : Rec} (hw : WF true (HostWF env) u) (hf : b.scheme = u!"file") (hfu : u.scheme = u!"file") {t T : Str} {p : List Str}
    (hp : u.path = .list p) (hP : serializePath u.path = c!"/" :: c!"/" :: t)
    (hT : tailText (serializePath u.path) (ownShown u.query) (ownShown u.fragment) = T) {x : Except Err Rec} (hx : FileText env (some b) T x) : x ≠ .ok u := by
  have hsp : Spec.isSpecial u.scheme = true := by rw [hfu]; decide
  have hhead : ∃ w, T = c!"/" :: c!"/" :: w := ⟨t ++ tailStr (ownShown u.query) (ownShown u.fragment), by rw [← hT, tailText_eq, hP]; rfl⟩
  have hfew := fun {s1 s2 r q f} (h1 : Slash true s1) (h2 : Slash true s2) (ok : TailOK r q) => by
    have := own_fewer hw hp (s1 := s1) (s2 := s2) (r := r) (q := q) (f := f)
    rw [hsp] at this
    exact this h1 h2 ok
  have hcat : ∀ {host path : Str} {q : Option Str}, (∀ c ∈ host, ¬ AuthorityEnd true c) → TailOK path q → TailOK (host ++ path) q := by
    intro host path q hh ok
    refine ⟨fun c hc => ?_, ok.2⟩
    rcases List.mem_append.1 hc with hc | hc
    · have := hh c hc
      exact ⟨fun h => this (.inr (.inl h)), fun h => this (.inr (.inr (.inl h)))⟩
    · exact ok.1 c hc
  have hpath : ∀ {h : Option Host} {P : List Str} {q f : Option Str}, Except.ok (ε := Err) (Spec.fileURL h P q f) = .ok u → p = P := by
    intro h P q f hu
    injection hu with hu
    have := congrArg Rec.path hu
    rw [hp] at this
    injection this with this
    exact this.symm
  cases hx with
  | noHost s1 s2 path q f h1 h2 hs ok =>
    intro hu
    have h3 := hfew h1 h2 ok hT
    have h4 := pathOf_count (sc := u!"file") (t := path) hs
    rw [← hpath hu] at h4
    have : Spec.isSpecial u!"file" = true := rfl
    rw [this] at h4
    omega
  | host s1 s2 host path q f v h1 h2 hne hh hd hv hs ok =>
    intro hu
    have h3 := hfew h1 h2 (hcat hh ok) (hT.trans (by rw [tail_append]))
    have h4 := pathOf_count (sc := u!"file") (t := path) hs
    rw [← hpath hu] at h4
    have : Spec.isSpecial u!"file" = true := rfl
    rw [this] at h4
    rw [List.countP_append] at h3
    omega
  | badHost => intro hu; cases hu
  | drive s1 s2 host path q f h1 h2 hd hs ok =>
    intro hu
    have hh : ∀ c ∈ host, ¬ AuthorityEnd true c := drive_end hd
    have h3 := hfew h1 h2 (hcat hh ok) (hT.trans (by rw [tail_append]))
    have h4 := followed_count true true [] (host ++ path)
    rw [← hpath hu] at h4
    simp only [List.length_nil] at h4
    omega
  | rooted s t' q f hs ht ok =>
    obtain ⟨w, e⟩ := hhead
    cases t' with
    | nil => cases q <;> cases f <;> simp [tailText] at e
    | cons c t' =>
      have : c = 47 := by simp [tailText] at e; exact e.2.1
      exact absurd (.inl this) (ht c rfl)
  | plain t' q f hb => exact absurd hf (hb b rfl)
  | path b' p' t' q f _ _ _ hne ht ok =>
    obtain ⟨w, e⟩ := hhead
    cases t' with
    | nil => exact absurd rfl hne
    | cons c t' =>
      have : c = 47 := by simp [tailText] at e; exact e.1
      exact absurd (.inl this) (ht c rfl)
  | same b' q f =>
    obtain ⟨w, e⟩ := hhead
    cases q <;> cases f <;> simp [tailText] at e
  | empty =>
    obtain ⟨w, e⟩ := hhead
    cases e

end Urlstd
