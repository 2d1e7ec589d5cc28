/-
For C101: the same for a base whose scheme is "file".
-/
import Verif.Lemmas.Place3

namespace Urlstd

open Spec (Denotes FileText Relative Parts TailOK tailText Slash NoSlash SchemeText AuthorityEnd TwoSlashes NoPath NoQuery IsStr OnDrive refPath Place FilePlace
  DriveFirst driveOf)

variable {env : Env}

theorem file_dots {u : Rec} (hw : WF true (HostWF env) u) (hf : u.scheme = u!"file") : dots u = [] := by
  have h1 := (hw.auth.special (by rw [← isSpecial_rec, hf]; decide)).1
  unfold dots Rec.needsDot
  cases h : u.host with
  | none => exact absurd h h1
  | some => rfl

theorem normDrive_slash {d : Str} (h : Spec.isNormDrive d = true) : ∀ c ∈ d, c ≠ c!"/" := by
  match d, h with
  | [a, b], h =>
    simp only [Spec.isNormDrive, Bool.and_eq_true, decide_eq_true_eq, beq_iff_eq] at h
    unfold Spec.Letter at h
    intro c hc
    simp only [List.mem_cons, List.not_mem_nil, or_false] at hc
    omega

/-- the drive letter in the text is that of the record -/
theorem onDrive_iff {u : Rec} {p : List Str} (hw : WF true (HostWF env) u) (hf : u.scheme = u!"file") (hp : u.path = .list p) {d rest : Str} :
    OnDrive (writtenPath u) d rest ↔ Spec.isNormDrive d = true ∧ ∃ ps, p = d :: ps ∧ rest = ps.flatMap (c!"/" :: ·) := by
  have hsegs := (pathWF_list hw hp).1
  rw [written_flat hp, file_dots hw hf, List.nil_append]
  have hflat : ∀ ps : List Str, ∀ c, (ps.flatMap (c!"/" :: ·)).head? = some c → c = c!"/" := by
    intro ps c hc
    cases ps with
    | nil => cases hc
    | cons s ps => cases hc; rfl
  constructor
  · rintro ⟨h1, h2, h3⟩
    refine ⟨h1, ?_⟩
    cases p with
    | nil => simp at h2
    | cons s ps =>
      have h2 : s ++ ps.flatMap (c!"/" :: ·) = d ++ rest := by simpa using h2
      obtain ⟨e1, e2⟩ := span_unique (stop := (· = c!"/")) h2 (fun c hc e => segOK_slash (hsegs.segs s (by simp)) (e ▸ hc)) (normDrive_slash h1) (hflat ps) (by
        rcases h3 with rfl | ⟨t, rfl⟩
        · simp
        · rintro c ⟨⟩; rfl)
      exact ⟨ps, by rw [e1], e2.symm⟩
  · rintro ⟨h1, ps, rfl, rfl⟩
    refine ⟨h1, by simp, ?_⟩
    cases ps with
    | nil => exact .inl rfl
    | cons s ps => exact .inr ⟨_, rfl⟩

theorem refPath_tail {t : Str} {q f : Option Str} (ok : TailOK t q) : refPath (tailText t q f) = t := by
  unfold refPath
  rw [tailText_eq, List.takeWhile_append_of_pos (by
    intro c hc
    have := ok.1 c hc
    simp [this])]
  have : (tailStr q f).takeWhile (fun c => c != c!"?" && c != c!"#") = [] := by
    cases h : tailStr q f with
    | nil => rfl
    | cons c w =>
      have := tailStr_head q f c (by rw [h]; rfl)
      rw [List.takeWhile_cons_of_neg]
      rcases this with rfl | rfl <;> decide
  rw [this, List.append_nil]

theorem tail_cons (s : Nat) (t : Str) (q f : Option Str) : s :: tailText t q f = tailText (s :: t) q f := by
  rw [tailText_eq, tailText_eq]; rfl

theorem tail_append (a t : Str) (q f : Option Str) : a ++ tailText t q f = tailText (a ++ t) q f := by
  rw [tailText_eq, tailText_eq, List.append_assoc]

theorem slash_tailOK {sp : Bool} {s : Nat} {t : Str} {q : Option Str} (hs : Slash sp s) (ok : TailOK t q) : TailOK (s :: t) q := by
  refine ⟨fun c hc => ?_, ok.2⟩
  rcases List.mem_cons.1 hc with rfl | hc
  · rcases hs with rfl | ⟨-, rfl⟩ <;> decide
  · exact ok.1 c hc

theorem append_tailOK {u : Rec} (hw : WF true (HostWF env) u) {a t : Str} {q : Option Str} (ha : ∀ c ∈ a, c ∈ writtenPath u) (ok : TailOK t q) : TailOK (a ++ t) q := by
  refine ⟨fun c hc => ?_, ok.2⟩
  rcases List.mem_append.1 hc with hc | hc
  · exact notQF_ne (writtenPath_chars hw c (ha c hc))
  · exact ok.1 c hc

/-- C101, for a base whose scheme is "file" -/
theorem place_file {u : Rec} (hw : WF true (HostWF env) u) (hf : u.scheme = u!"file") (hd : Denotes env none u.serialize (.ok u)) {p : List Str}
    (hp : u.path = .list p) {r part : Str} {x : Except Err Rec} (hstr : IsStr r) (hr : FileText env (some u) r x)
    (hpl : FilePlace (Spec.Rfc.split u.serialize) r part) : Denotes env none (part ++ r) x := by
  have hsc := schemeOK_text hw.auth.scheme
  have hlow := schemeOK_lower hw.auth.scheme
  obtain ⟨hsegs, hpne, -⟩ := pathWF_list hw hp
  have hsp : Spec.isSpecial u.scheme = true := by rw [hf]; decide
  have hpne := hpne (by rw [← isSpecial_rec]; exact hsp)
  have hfile : Spec.isFile u.scheme = true := by unfold Spec.isFile; simpa using hf
  have hdots := file_dots hw hf
  obtain ⟨b1, b2, b3⟩ := hw.auth.bare (.inr (.inr hf))
  have hURL : ∀ (P : List Str) (q f : Option Str),
      ({ u with path := .list P, query := q.map (Spec.queryEncode (Spec.isSpecial u.scheme)), fragment := f.map Spec.fragmentEncode } : Rec) = Spec.fileURL u.host P q f := by
    intro P q f
    unfold Spec.fileURL
    rw [hsp, hf, b1, b2, b3]
  have hagain : ∀ {path : Str} {q f : Option Str}, TailOK path q → (∀ c, path.head? = some c → Slash true c) →
      Denotes env none (rootText u ++ tailText path q f) (.ok (Spec.fileURL u.host (Spec.pathOf u.scheme path) q f)) := by
    intro path q f h1 h2
    rw [← hURL]
    exact denotes_again_file hw hf hd h1 h2
  have hkeep : ∀ {P : List Str} {s : Nat} {t : Str}, SegsOK true u.scheme P → Slash true s → IsStr t →
      Spec.pathOf u.scheme (P.flatMap (c!"/" :: ·) ++ s :: t) = Spec.follow true P (Spec.segmentsOf true t) := by
    intro P s t h1 h2 h3
    have := pathOf_keep (u := u) h1 (d := s) (by rw [hsp]; exact h2) h3
    rw [hdots, hsp, hfile] at this
    exact this
  have hflat : ∀ {P : List Str} {w : Str}, (∀ c, w.head? = some c → Slash true c) → ∀ c, (P.flatMap (c!"/" :: ·) ++ w).head? = some c → Slash true c := by
    intro P w hw c hc
    cases P with
    | nil => exact hw c hc
    | cons s P => cases hc; exact .inl rfl
  have hwritten : writtenPath u = p.flatMap (c!"/" :: ·) := by rw [written_flat hp, hdots]; rfl
  have hone : ∀ {s : Nat} {t : Str}, Slash true s → ∀ c, (s :: t).head? = some c → Slash true c := by
    rintro s t h c ⟨⟩
    exact h
  have htwo : ∀ {r : Str}, TwoSlashes true r → FilePlace (Spec.Rfc.split u.serialize) r part → FileText env none r x → Denotes env none (part ++ r) x := by
    intro r h1 h2 h3
    have hn := h1
    obtain ⟨s1, s2, t, rfl, g1, g2⟩ := hn
    generalize hT : s1 :: s2 :: t = T at h2
    cases h2 with
    | scheme =>
      rw [schemePart_eq hw, ← hT]
      exact .file _ _ _ hsc (hlow.trans hf) h3
    | root k1 k2 => cases hT; exact absurd g2 (k2 _ rfl)
    | drive k1 k2 => cases hT; exact absurd g2 (k2 _ rfl)
    | directory k1 => rw [← hT] at k1; exact absurd g1 (k1 _ rfl)
    | onlyDrive k1 => rw [← hT] at k1; exact absurd g1 (k1 _ rfl)
    | ownDrive k1 => rw [← hT] at k1; exact absurd g1 (k1 _ rfl)
    | path r' => exact absurd (question_noPath r') (hT ▸ slash_noPath g1)
    | query k1 => exact absurd (noQuery_noPath k1) (hT ▸ slash_noPath g1)
  cases hr with
  | noHost s1 s2 path q f h1 h2 h3 h4 => exact htwo ⟨_, _, _, rfl, h1, h2⟩ hpl (.noHost s1 s2 path q f h1 h2 h3 h4)
  | host s1 s2 ht path q f v h1 h2 h3 h4 h5 h6 h7 h8 => exact htwo ⟨_, _, _, rfl, h1, h2⟩ hpl (.host s1 s2 ht path q f v h1 h2 h3 h4 h5 h6 h7 h8)
  | badHost s1 s2 ht path q f v h1 h2 h3 h4 h5 h6 h7 h8 => exact htwo ⟨_, _, _, rfl, h1, h2⟩ hpl (.badHost s1 s2 ht path q f v h1 h2 h3 h4 h5 h6 h7 h8)
  | drive s1 s2 ht path q f h1 h2 h3 h4 h5 => exact htwo ⟨_, _, _, rfl, h1, h2⟩ hpl (.drive s1 s2 ht path q f h1 h2 h3 h4 h5)
  | rooted s t q f hs ht ok =>
    have hn := rooted_not_two (s := s) (q := q) (f := f) ht
    have hn2 := slash_noPath (r := tailText t q f) hs
    have hst : IsStr t := isStr_tail (q := q) (f := f) fun c hc => hstr c (by simp [hc])
    have hrp := refPath_tail (f := f) ok
    have hhost : Spec.inheritedHost (some u) = u.host := by unfold Spec.inheritedHost; dsimp only; rw [if_pos hf]
    have hdrive : ∀ {d ps}, p = d :: ps → Spec.inheritedDrive (some u) t = if Spec.isNormDrive d = true ∧ ¬ DriveFirst t then [d] else [] := by
      rintro d ps rfl
      unfold Spec.inheritedDrive
      dsimp only
      rw [hp]
      simp only [hf, true_and]
    rw [hhost]
    generalize hT : tailText t q f = T at hpl hn hn2 hrp
    cases hpl with
    | scheme h2 => exact absurd h2 hn
    | directory k1 => exact absurd hs (k1 _ rfl)
    | onlyDrive k1 => exact absurd hs (k1 _ rfl)
    | ownDrive k1 => exact absurd hs (k1 _ rfl)
    | path r' => exact absurd (question_noPath _) hn2
    | query k1 => exact absurd (noQuery_noPath k1) hn2
    | root k1 k2 k3 =>
      rw [rootPart_eq hw, ← hT, tail_cons]
      have := hagain (f := f) (slash_tailOK hs ok) (hone hs)
      rw [show Spec.pathOf u.scheme (s :: t) = Spec.follow true [] (Spec.segmentsOf true t) from hkeep (P := []) ⟨by simp, by simp⟩ hs hst] at this
      rw [hrp, path_part hw] at k3
      cases p with
      | nil => exact absurd rfl hpne
      | cons d ps =>
        rw [hdrive rfl, if_neg]
        · exact this
        · rintro ⟨j1, j2⟩
          rcases k3 with k3 | k3
          · exact j2 k3
          · exact k3 d _ ((onDrive_iff hw hf hp).2 ⟨j1, ps, rfl, rfl⟩)
    | drive k1 k2 k3 k4 =>
      rename_i d rest
      rw [path_part hw] at k4
      rw [hrp] at k3
      obtain ⟨j1, ps, rfl, rfl⟩ := (onDrive_iff hw hf hp).1 k4
      rw [hdrive rfl, if_pos ⟨j1, k3⟩, rootPart_eq hw, ← hT, tail_cons, List.append_assoc, List.append_assoc, tail_append, tail_append]
      have := hagain (path := u!"/" ++ (d ++ s :: t)) (q := q) (f := f) (by
        rw [← List.append_assoc]
        exact append_tailOK hw (by rw [hwritten]; simp; exact fun c hc => .inr (.inl hc)) (slash_tailOK hs ok)) (hone (.inl rfl))
      rw [show u!"/" ++ (d ++ s :: t) = [d].flatMap (c!"/" :: ·) ++ s :: t by simp] at this ⊢
      rw [hkeep (segsOK_prefix (s := ps) hsegs) hs hst] at this
      exact this
  | plain t q f hb => exact absurd hf (hb u rfl)
  | path b p' t q f hbase hb hp' hne ht ok =>
    cases hbase
    rw [hp] at hp'
    cases hp'
    have hn := tail_path (f := f) ok hne
    have hs := tail_noSlash (q := q) (f := f) hne ht
    have hst := isStr_tail hstr
    have hrp := refPath_tail (f := f) ok
    generalize hT : tailText t q f = T at hpl hn hs hrp
    cases hpl with
    | scheme h2 => exact absurd h2 (noSlash_not_two hs)
    | root h1 h2 => exact absurd hs (noSlash_cons h1)
    | drive h1 h2 => exact absurd hs (noSlash_cons h1)
    | path r' => exact absurd (question_noPath r') hn
    | query h1 => exact absurd (noQuery_noPath h1) hn
    | directory k1 k2 k3 k4 =>
      rw [hrp] at k3
      rw [path_part hw] at k4
      have e3 : Spec.parent true p = p.dropLast := by
        unfold Spec.parent
        rw [if_neg]
        rintro ⟨-, d, -, rfl, hd⟩
        exact k4 d ((onDrive_iff hw hf hp).2 ⟨hd, [], rfl, rfl⟩)
      rw [if_neg k3, rootPart_eq hw, path_part hw, ← hT, List.append_assoc, e3, tail_append]
      have := hagain (f := f) (directory_tailOK hw ok) (directory_slash hp hsegs _ t)
      rw [directory_written hp hsegs, hdots] at this ⊢
      rw [List.nil_append, List.append_assoc] at this ⊢
      rw [show u!"/" ++ t = c!"/" :: t from rfl, hkeep (segsOK_dropLast hsegs) (.inl rfl) hst] at this
      exact this
    | onlyDrive k1 k2 k3 k4 =>
      rename_i d
      rw [hrp] at k3
      rw [path_part hw] at k4
      obtain ⟨j1, ps, rfl, j2⟩ := (onDrive_iff hw hf hp).1 k4
      obtain rfl : ps = [] := by cases ps with | nil => rfl | cons => cases j2
      have e3 : Spec.parent true [d] = [d] := by
        unfold Spec.parent
        rw [if_pos ⟨rfl, d, by simp, rfl, j1⟩]
      rw [if_neg k3, rootPart_eq hw, path_part hw, ← hT, List.append_assoc, List.append_assoc, e3, tail_append, tail_append]
      have := hagain (path := writtenPath u ++ (u!"/" ++ t)) (q := q) (f := f) (append_tailOK hw (fun c hc => hc) (slash_tailOK (sp := true) (.inl rfl) ok))
        (by rw [hwritten]; exact hflat (hone (.inl rfl)))
      rw [hwritten] at this ⊢
      rw [show u!"/" ++ t = c!"/" :: t from rfl, hkeep hsegs (.inl rfl) hst] at this
      exact this
    | ownDrive k1 k2 k3 =>
      rw [hrp] at k3
      rw [if_pos k3, rootPart_eq hw, ← hT, List.append_assoc, tail_append]
      have := hagain (path := u!"/" ++ t) (q := q) (f := f) (slash_tailOK (sp := true) (.inl rfl) ok) (hone (.inl rfl))
      rw [show Spec.pathOf u.scheme (u!"/" ++ t) = Spec.follow true [] (Spec.segmentsOf true t) from hkeep (P := []) ⟨by simp, by simp⟩ (.inl rfl) hst] at this
      exact this
  | same b q f hbase hb hne ok =>
    cases hbase
    have hn := tail_noPath q f
    have key : ∀ {q' : Option Str}, (∀ x, q' = some x → c!"#" ∉ x) →
        Denotes env none (rootText u ++ tailText (writtenPath u) q' f)
          (.ok { scheme := u!"file", host := u.host, path := u.path, query := q'.map (Spec.queryEncode true), fragment := f.map Spec.fragmentEncode }) := by
      intro q' hq
      have := hagain (f := f) (written_tailOK hw hq) (written_slash hp _)
      rw [pathOf_written hw hp] at this
      rw [hp]
      exact this
    generalize hT : tailText [] q f = T at hpl hn
    cases hpl with
    | scheme h2 => exact absurd h2 (noSlash_not_two (noPath_noSlash hn))
    | root h1 h2 => exact absurd hn (slash_noPath h1)
    | drive h1 h2 => exact absurd hn (slash_noPath h1)
    | directory h1 h2 => exact absurd hn h2
    | onlyDrive h1 h2 => exact absurd hn h2
    | ownDrive h1 h2 => exact absurd hn h2
    | path r' =>
      rw [rootPart_eq hw, path_part hw, ← hT, List.append_assoc, ← tail_head_tail]
      cases q with
      | none => exact absurd (tail_noQuery f) (by rw [hT]; intro h; exact absurd (h _ rfl) (by decide))
      | some q => exact key ok.2
    | query h1 =>
      cases q with
      | some q => exact absurd (h1 c!"?" (by rw [← hT]; simp [tailText])) (by decide)
      | none =>
        rw [rootPart_eq hw, path_part hw, ← hT, List.append_assoc, List.append_assoc, ← List.append_assoc (writtenPath u), queryPart_eq hw]
        have := key (query_tailOK hw)
        rw [← hsp, query_written hw] at this
        exact this
  | empty b p' hbase hb hp' =>
    generalize hT : ([] : Str) = T at hpl
    cases hpl with
    | scheme h2 => obtain ⟨_, _, _, h, -⟩ := h2; rw [← hT] at h; cases h
    | root h1 h2 => cases hT
    | drive h1 h2 => cases hT
    | directory h1 h2 => exact absurd (by rw [← hT]; intro c hc; cases hc) h2
    | onlyDrive h1 h2 => exact absurd (by rw [← hT]; intro c hc; cases hc) h2
    | ownDrive h1 h2 => exact absurd (by rw [← hT]; intro c hc; cases hc) h2
    | path r' => cases hT
    | query h1 h2 => exact absurd hT.symm h2

end Urlstd
