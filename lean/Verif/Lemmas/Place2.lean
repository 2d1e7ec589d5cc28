/-
For C101: the path of a base and a path behind its directory.
-/
import Verif.Lemmas.Place
import Verif.Lemmas.Anatomy2
import Verif.Lemmas.CleanUrl1

namespace Urlstd

open Spec (Denotes FileText Relative Parts TailOK tailText Slash NoSlash SchemeText AuthorityEnd TwoSlashes NoPath NoQuery IsStr OnDrive refPath)

variable {env : Env}

/-- the "." in front of a path that would look like an authority -/
def dots (u : Rec) : List Str := if u.needsDot then [u!"."] else []

theorem written_flat {u : Rec} {p : List Str} (hp : u.path = .list p) : writtenPath u = (dots u ++ p).flatMap (c!"/" :: ·) := by
  unfold writtenPath dots serializePath
  rw [hp]
  split <;> simp

theorem dots_nil {u : Rec} (hp : u.path = .list []) : dots u = [] := by
  unfold dots Rec.needsDot
  rw [hp]
  simp

theorem segOK_slash {sp : Bool} {s : Str} (h : SegOK sp s) : c!"/" ∉ s := fun hc => by
  have := (h.chars _ hc).2
  unfold isPathSep at this
  simp at this

/-- the directory of a path that is written with its segments -/
theorem directory_flat (D : List Str) {l : Str} (hl : c!"/" ∉ l) :
    Spec.directory ((D ++ [l]).flatMap (c!"/" :: ·)) = D.flatMap (c!"/" :: ·) ++ u!"/" := by
  unfold Spec.directory
  rw [if_neg (by simp)]
  rw [show (D ++ [l]).flatMap (c!"/" :: ·) = (D.flatMap (c!"/" :: ·) ++ u!"/") ++ l by simp, List.reverse_append,
    List.dropWhile_append_of_pos (by intro c hc; simp only [List.mem_reverse] at hc; simp; rintro rfl; exact hl hc)]
  simp

theorem directory_written {u : Rec} {p : List Str} (hp : u.path = .list p) (hs : SegsOK true u.scheme p) :
    Spec.directory (writtenPath u) = (dots u ++ p.dropLast).flatMap (c!"/" :: ·) ++ u!"/" := by
  rw [written_flat hp]
  rcases List.eq_nil_or_concat p with rfl | ⟨D, l, rfl⟩
  · rw [dots_nil hp]; rfl
  · rw [List.concat_eq_append] at hs ⊢
    rw [← List.append_assoc, directory_flat _ (segOK_slash (hs.segs l (by simp)))]
    simp

/-- the segments of a text that is written with segments -/
theorem segmentsOf_flat {sp : Bool} (X : List Str) (h : ∀ s ∈ X, ∀ c ∈ s, isPathSep sp c = false) (d : Nat) (hd : isPathSep sp d = true) (t : Str) :
    ∃ c w, X.flatMap (c!"/" :: ·) ++ d :: t = c :: w ∧ Spec.segmentsOf sp w = X ++ Spec.segmentsOf sp t := by
  induction X with
  | nil => exact ⟨_, _, rfl, rfl⟩
  | cons s X ih =>
    obtain ⟨c, w, e1, e2⟩ := ih fun s hs => h s (by simp [hs])
    have hc : isPathSep sp c = true := by
      cases X with
      | nil => simp only [List.flatMap_nil, List.nil_append, List.cons.injEq] at e1; rw [← e1.1]; exact hd
      | cons => simp only [List.flatMap_cons, List.cons_append, List.cons.injEq] at e1; rw [← e1.1]; rfl
    refine ⟨c!"/", s ++ c :: w, ?_, ?_⟩
    · rw [← e1]; simp
    · rw [segmentsOf_eq, pathPieces_cut (h s (by simp)) hc, ← segmentsOf_eq, e2]; rfl

theorem pathOf_flat {sc : Str} (X : List Str) (h : ∀ s ∈ X, ∀ c ∈ s, isPathSep (Spec.isSpecial sc) c = false) (d : Nat) (hd : Slash (Spec.isSpecial sc) d) (t : Str) :
    Spec.pathOf sc (X.flatMap (c!"/" :: ·) ++ d :: t) = Spec.follow (Spec.isFile sc) [] (X ++ Spec.segmentsOf (Spec.isSpecial sc) t) := by
  obtain ⟨c, w, e1, e2⟩ := segmentsOf_flat X h d (by unfold isPathSep; rcases hd with rfl | ⟨h, rfl⟩ <;> simp [*]) t
  rw [e1]
  show Spec.follow _ _ (Spec.segmentsOf _ w) = _
  rw [e2]

/-- the segments that are there already stay -/
theorem addPieces_keep {sc : Str} {S : List Str} (hS : S ≠ []) (ps : List Str) : ∀ {p : List Str}, SegsOK true sc (p ++ ps) →
    addPieces sc p (ps ++ S) = addPieces sc (p ++ ps) S := by
  induction ps with
  | nil => intro p _; simp
  | cons s ps ih =>
    intro p h
    have hadd : addSegment sc p s true = p ++ [s] := by
      refine addSegment_id (h.segs s (by simp)) ?_
      rintro hf rfl hw
      exact h.drive rfl hf s rfl hw
    cases hq : ps ++ S with
    | nil => simp at hq; exact absurd hq.2 hS
    | cons q qs =>
      rw [List.cons_append, hq]
      conv => lhs; unfold addPieces
      rw [hadd, ← hq, ih (by rw [List.append_assoc]; exact h), List.append_assoc]
      rfl

theorem addPieces_dot (sc : Str) {S : List Str} (hS : S ≠ []) : addPieces sc [] (u!"." :: S) = addPieces sc [] S := by
  cases S with
  | nil => exact absurd rfl hS
  | cons s S =>
    conv => lhs; unfold addPieces
    rfl

theorem addPieces_dots (sc : Str) (u : Rec) {S : List Str} (hS : S ≠ []) : addPieces sc [] (dots u ++ S) = addPieces sc [] S := by
  unfold dots
  split
  · exact addPieces_dot sc hS
  · rfl

theorem isStr_segments {sp : Bool} {t : Str} (h : IsStr t) : ∀ a ∈ Spec.segmentsOf sp t, IsStr a := by
  induction t with
  | nil => intro a ha; simp [Spec.segmentsOf] at ha; subst ha; intro c hc; cases hc
  | cons c cs ih =>
    have ih := ih fun x hx => h x (by simp [hx])
    intro a ha
    unfold Spec.segmentsOf at ha
    split at ha
    · rcases List.mem_cons.1 ha with rfl | ha
      · intro c hc; cases hc
      · exact ih a ha
    · split at ha
      · simp only [List.mem_cons, List.not_mem_nil, or_false] at ha
        subst ha
        intro x hx
        simp only [List.mem_cons, List.not_mem_nil, or_false] at hx
        subst hx
        exact h _ (by simp)
      · next hd => 
        rw [hd] at ih
        rcases List.mem_cons.1 ha with rfl | ha
        · intro x hx
          rcases List.mem_cons.1 hx with rfl | hx
          · exact h _ (by simp)
          · exact ih _ (by simp) x hx
        · exact ih a (by simp [ha])

theorem segOK_isStr {sp : Bool} {s : Str} (h : SegOK sp s) : IsStr s := by
  intro c hc
  have := safePath_print (h.chars c hc).1
  omega

theorem dots_isStr (u : Rec) : ∀ s ∈ dots u, IsStr s := by
  intro s hs
  unfold dots at hs
  split at hs
  · simp only [List.mem_cons, List.not_mem_nil, or_false] at hs
    subst hs
    decide
  · cases hs

/-- the path of a base with another behind it -/
theorem follow_keep {u : Rec} {p : List Str} (hs : SegsOK true u.scheme p) {S : List Str} (hS : S ≠ []) (hS' : ∀ a ∈ S, IsStr a) :
    Spec.follow (Spec.isFile u.scheme) [] (dots u ++ p ++ S) = Spec.follow (Spec.isFile u.scheme) p S := by
  rw [← addPieces_follow, ← addPieces_follow _ _ hS', List.append_assoc, addPieces_dots _ _ (by simp [hS]), addPieces_keep hS p (p := []) hs]
  · rfl
  · intro a ha
    rcases List.mem_append.1 ha with ha | ha
    · rcases List.mem_append.1 ha with ha | ha
      · exact dots_isStr u a ha
      · exact segOK_isStr (hs.segs a ha)
    · exact hS' a ha

theorem segsOK_prefix {k : Bool} {sc : Str} {p s : List Str} (h : SegsOK k sc (p ++ s)) : SegsOK k sc p :=
  ⟨fun x hx => h.segs x (by simp [hx]), fun hk hf x hx => h.drive hk hf x (by cases p with | nil => cases hx | cons => exact hx)⟩

theorem segsOK_dropLast {k : Bool} {sc : Str} {p : List Str} (h : SegsOK k sc p) : SegsOK k sc p.dropLast := by
  rcases List.eq_nil_or_concat p with rfl | ⟨D, l, rfl⟩
  · exact h
  · rw [List.concat_eq_append] at h ⊢
    simp only [List.dropLast_concat]
    exact segsOK_prefix h

theorem dots_sep {u : Rec} {p : List Str} (hs : SegsOK true u.scheme p) :
    ∀ s ∈ dots u ++ p, ∀ c ∈ s, isPathSep (Spec.isSpecial u.scheme) c = false := by
  intro s hm c hc
  rcases List.mem_append.1 hm with hm | hm
  · unfold dots at hm
    split at hm
    · simp only [List.mem_cons, List.not_mem_nil, or_false] at hm
      subst hm
      simp only [List.mem_cons, List.not_mem_nil, or_false] at hc
      subst hc
      simp [isPathSep]
    · cases hm
  · have := ((hs.segs s hm).chars c hc).2
    rwa [isSpecial_eq]

/-- a path with another behind it, on the whole -/
theorem pathOf_keep {u : Rec} {p : List Str} (hs : SegsOK true u.scheme p) {d : Nat} (hd : Slash (Spec.isSpecial u.scheme) d) {t : Str} (ht : IsStr t) :
    Spec.pathOf u.scheme ((dots u ++ p).flatMap (c!"/" :: ·) ++ d :: t) =
      Spec.follow (Spec.isFile u.scheme) p (Spec.segmentsOf (Spec.isSpecial u.scheme) t) := by
  rw [pathOf_flat _ (dots_sep hs) d hd, follow_keep hs (by rw [segmentsOf_eq]; exact pathPieces_ne _ _) (isStr_segments ht)]

/-- the path of a base is read as it is written -/
theorem pathOf_written {u : Rec} {p : List Str} (hw : WF true (HostWF env) u) (hp : u.path = .list p) : Spec.pathOf u.scheme (writtenPath u) = p := by
  have hs : SegsOK true u.scheme p ∧ (u.isSpecial = true → p ≠ []) ∧ (u.host = none → p ≠ []) := by
    have := hw.path
    unfold PathWF at this
    rw [hp] at this
    exact this
  obtain ⟨hs, h1, -⟩ := hs
  rw [written_flat hp]
  rcases List.eq_nil_or_concat p with rfl | ⟨D, l, rfl⟩
  · rw [dots_nil hp]
    show (if _ then _ else _) = _
    rw [if_neg]
    intro h
    rw [isSpecial_rec] at h
    exact h1 h rfl
  · rw [List.concat_eq_append] at hs ⊢
    have hl := hs.segs l (by simp)
    rw [← List.append_assoc, List.flatMap_append]
    have e : Spec.segmentsOf (Spec.isSpecial u.scheme) l = [l] := by
      rw [segmentsOf_eq]
      exact pathPieces_single fun c hc => by rw [isSpecial_eq]; exact (hl.chars c hc).2
    have := pathOf_keep (segsOK_prefix hs) (.inl rfl) (segOK_isStr hl)
    rw [e, ← addPieces_follow _ _ (by simpa using segOK_isStr hl), addPieces_id _ hs] at this
    simpa using this

theorem query_written {k : Bool} {u : Rec} (hw : WF k (HostWF env) u) : u.query.map (Spec.queryEncode (Spec.isSpecial u.scheme)) = u.query := by
  have h1 : ∀ x, u.query = some x → IsStr x := fun x hx c hc => by
    have := querySafe_print (hw.query x hx c hc)
    omega
  rw [isSpecial_rec, ← query_map_eq u h1]
  cases hq : u.query with
  | none => rfl
  | some q => simp only [Option.map_some]; rw [query_fixed (hw.query q hq)]

end Urlstd
