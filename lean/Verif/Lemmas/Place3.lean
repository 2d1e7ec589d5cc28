/-
For C101: a reference behind its part of the text of the base is read as the reference against the base.
-/
import Verif.Lemmas.Place2

namespace Urlstd

open Spec (Denotes FileText Relative Parts TailOK tailText Slash NoSlash SchemeText AuthorityEnd TwoSlashes NoPath NoQuery IsStr OnDrive refPath Place FilePlace)

variable {env : Env}

theorem schemePart_eq {u : Rec} (hw : WF true (HostWF env) u) : Spec.schemePart (Spec.Rfc.split u.serialize) = u.scheme ++ u!":" := by
  rw [split_serialize hw]; rfl

theorem rootPart_eq {u : Rec} (hw : WF true (HostWF env) u) : Spec.rootPart (Spec.Rfc.split u.serialize) = rootText u := by
  unfold Spec.rootPart
  rw [schemePart_eq hw, split_serialize hw]
  unfold rootText
  cases u.host <;> rfl

theorem path_part {u : Rec} (hw : WF true (HostWF env) u) : (Spec.Rfc.split u.serialize).path = writtenPath u := by
  rw [split_serialize hw]

theorem queryPart_eq {u : Rec} (hw : WF true (HostWF env) u) (t : Str) (f : Option Str) :
    t ++ Spec.queryPart (Spec.Rfc.split u.serialize) ++ tailText [] none f = tailText t u.query f := by
  rw [split_serialize hw]
  unfold Spec.queryPart tailText
  cases u.query <;> cases f <;> simp

theorem tail_head_tail (t : Str) (q f : Option Str) : tailText t q f = t ++ tailText [] q f := by
  rw [tailText_eq, tailText_eq]; rfl

theorem pathWF_list {u : Rec} {p : List Str} (hw : WF true (HostWF env) u) (hp : u.path = .list p) :
    SegsOK true u.scheme p ∧ (u.isSpecial = true → p ≠ []) ∧ (u.host = none → p ≠ []) := by
  have := hw.path
  unfold PathWF at this
  rw [hp] at this
  exact this

/-- a path that is written with segments does not begin with two slashes if the first segment is not empty -/
theorem flat_head {X : List Str} {t : Str} (h : ∀ s, X.head? = some s → s ≠ [] ∧ c!"/" ∉ s) (hne : X ≠ []) : ∀ w, X.flatMap (c!"/" :: ·) ++ t ≠ c!"/" :: c!"/" :: w := by
  intro w e
  cases X with
  | nil => exact hne rfl
  | cons s X =>
    obtain ⟨h1, h2⟩ := h s rfl
    cases s with
    | nil => exact h1 rfl
    | cons c s =>
      simp only [List.flatMap_cons, List.cons_append, List.cons.injEq, true_and] at e
      exact h2 (by rw [e.1]; simp)

/-- a URL without a host: neither is its path empty nor does it begin with two slashes, nor does what stands behind its directory -/
theorem null_dir {u : Rec} {p : List Str} (hw : WF true (HostWF env) u) (hp : u.path = .list p) (hh : u.host = none) {t : Str}
    (ht : t.head? ≠ some c!"/") : ∀ w, (dots u ++ p.dropLast).flatMap (c!"/" :: ·) ++ c!"/" :: t ≠ c!"/" :: c!"/" :: w := by
  obtain ⟨h1, -, h3⟩ := pathWF_list hw hp
  have h3 := h3 hh
  cases hX : dots u ++ p.dropLast with
  | nil =>
    intro w e
    simp only [List.flatMap_nil, List.nil_append, List.cons.injEq, true_and] at e
    rw [e] at ht
    exact ht rfl
  | cons s X =>
    refine flat_head ?_ (by simp)
    rintro _ ⟨⟩
    by_cases hd : u.needsDot = true
    · unfold dots at hX
      rw [if_pos hd] at hX
      simp only [List.cons_append, List.cons.injEq] at hX
      rw [← hX.1]
      decide
    · have hd : u.needsDot = false := by simpa using hd
      unfold dots at hX
      rw [hd] at hX
      simp only [Bool.false_eq_true, if_false, List.nil_append] at hX
      have hm : s ∈ p := List.dropLast_subset _ (by rw [hX]; simp)
      refine ⟨?_, segOK_slash (h1.segs s hm)⟩
      rintro rfl
      unfold Rec.needsDot at hd
      rw [hh, hp] at hd
      match p, hX, hd with
      | a :: b :: r, hX, hd =>
        simp only [List.dropLast_cons_cons, List.cons.injEq] at hX
        rw [hX.1] at hd
        simp at hd

theorem null_path {u : Rec} {p : List Str} (hw : WF true (HostWF env) u) (hp : u.path = .list p) (hh : u.host = none) :
    writtenPath u ≠ [] ∧ ∀ w, writtenPath u ≠ c!"/" :: c!"/" :: w := by
  obtain ⟨h1, -, h3⟩ := pathWF_list hw hp
  have h3 := h3 hh
  rw [written_flat hp]
  rcases List.eq_nil_or_concat p with rfl | ⟨D, l, rfl⟩
  · exact absurd rfl h3
  · rw [List.concat_eq_append] at h1 hp ⊢
    have := null_dir hw hp hh (t := l) (by
      intro h
      cases l with
      | nil => cases h
      | cons c l => cases h; exact segOK_slash (h1.segs (c!"/" :: l) (by simp)) (by simp))
    refine ⟨by simp, ?_⟩
    simp only [List.dropLast_concat] at this
    simpa using this

theorem written_slash {u : Rec} {p : List Str} (hp : u.path = .list p) (sp : Bool) : ∀ c, (writtenPath u).head? = some c → Slash sp c := by
  intro c hc
  rw [written_flat hp] at hc
  cases h : dots u ++ p with
  | nil => rw [h] at hc; cases hc
  | cons s X => rw [h] at hc; cases hc; exact .inl rfl

theorem notQF_ne {c : Nat} (h : notQF c = true) : c ≠ c!"?" ∧ c ≠ c!"#" := by
  constructor <;> rintro rfl <;> exact absurd h (by decide)

theorem written_tailOK {u : Rec} (hw : WF true (HostWF env) u) {q : Option Str} (h : ∀ x, q = some x → c!"#" ∉ x) : TailOK (writtenPath u) q :=
  ⟨fun c hc => notQF_ne (writtenPath_chars hw c hc), h⟩

theorem query_tailOK {u : Rec} (hw : WF true (HostWF env) u) : ∀ x, u.query = some x → c!"#" ∉ x :=
  fun x hx hc => querySafe_hash (hw.query x hx _ hc) rfl

theorem directory_slash {u : Rec} {p : List Str} (hp : u.path = .list p) (hs : SegsOK true u.scheme p) (sp : Bool) (t : Str) :
    ∀ c, (Spec.directory (writtenPath u) ++ t).head? = some c → Slash sp c := by
  intro c hc
  rw [directory_written hp hs] at hc
  cases h : dots u ++ p.dropLast with
  | nil => rw [h] at hc; cases hc; exact .inl rfl
  | cons s X => rw [h] at hc; cases hc; exact .inl rfl

theorem directory_chars {s : Str} {c : Nat} (h : c ∈ Spec.directory s) : c = c!"/" ∨ c ∈ s := by
  unfold Spec.directory at h
  split at h
  · left; simpa using h
  · right
    rw [List.mem_reverse] at h
    simpa using (List.dropWhile_subset _ h)

theorem directory_tailOK {u : Rec} (hw : WF true (HostWF env) u) {t : Str} {q : Option Str} (ok : TailOK t q) : TailOK (Spec.directory (writtenPath u) ++ t) q := by
  refine ⟨fun c hc => ?_, ok.2⟩
  rcases List.mem_append.1 hc with hc | hc
  · rcases directory_chars hc with rfl | hc
    · decide
    · exact notQF_ne (writtenPath_chars hw c hc)
  · exact ok.1 c hc

theorem isStr_tail {t : Str} {q f : Option Str} (h : IsStr (tailText t q f)) : IsStr t := by
  rw [tail_head_tail] at h
  exact fun c hc => h c (by simp [hc])

/-- a path that is there is at the front of the text -/
theorem tail_path {t : Str} {q f : Option Str} (ok : TailOK t q) (hne : t ≠ []) : ¬ NoPath (tailText t q f) := by
  intro h
  rw [tailText_eq] at h
  cases t with
  | nil => exact hne rfl
  | cons c t =>
    have := ok.1 c (by simp)
    rcases h c rfl with h | h
    · exact this.1 h
    · exact this.2 h

theorem noQuery_noPath {r : Str} (h : NoQuery r) : NoPath r := fun c hc => .inr (h c hc)
theorem question_noPath (r : Str) : NoPath (c!"?" :: r) := by rintro c ⟨⟩; exact .inl rfl
theorem noSlash_cons {sp : Bool} {s : Nat} {r : Str} (h : Slash sp s) : ¬ NoSlash sp (s :: r) := fun hn => hn s rfl h
theorem slash_noPath {sp : Bool} {s : Nat} {r : Str} (h : Slash sp s) : ¬ NoPath (s :: r) := fun hn => by
  rcases hn s rfl with rfl | rfl <;> rcases h with h | ⟨-, h⟩ <;> cases h

/-- C101, for a base whose scheme is not "file" -/
theorem place_relative {u : Rec} (hw : WF true (HostWF env) u) (hf : u.scheme ≠ u!"file") (hd : Denotes env none u.serialize (.ok u)) {p : List Str}
    (hp : u.path = .list p) {r part : Str} {x : Except Err Rec} (hstr : IsStr r) (hr : Relative env u r x)
    (hpl : Place (Spec.isSpecial u.scheme) (Spec.Rfc.split u.serialize) r part) : Denotes env none (part ++ r) x := by
  have hsc := schemeOK_text hw.auth.scheme
  have hlow := schemeOK_lower hw.auth.scheme
  obtain ⟨hsegs, hpne, hnull⟩ := pathWF_list hw hp
  have hfile : Spec.isFile u.scheme = false := by unfold Spec.isFile; simpa using hf
  cases hr with
  | same q f ok =>
    have hn := tail_noPath q f
    have key : ∀ {q' : Option Str}, (∀ x, q' = some x → c!"#" ∉ x) →
        Denotes env none (rootText u ++ tailText (writtenPath u) q' f) (.ok { u with query := q'.map (Spec.queryEncode (Spec.isSpecial u.scheme)), fragment := f.map Spec.fragmentEncode }) := by
      intro q' hq
      have := denotes_again (f := f) hw hf hd hp (written_tailOK hw hq) (written_slash hp _) (null_path hw hp)
      rw [pathOf_written hw hp] at this
      rw [show ({ u with query := q'.map (Spec.queryEncode (Spec.isSpecial u.scheme)), fragment := f.map Spec.fragmentEncode } : Rec) =
        { u with path := .list p, query := q'.map (Spec.queryEncode (Spec.isSpecial u.scheme)), fragment := f.map Spec.fragmentEncode } by rw [hp]]
      exact this
    generalize hT : tailText [] q f = T at hpl hn
    cases hpl with
    | scheme h2 => exact absurd h2 (noSlash_not_two (noPath_noSlash hn))
    | root h1 h2 => exact absurd hn (slash_noPath h1)
    | directory h1 h2 => exact absurd hn h2
    | path r' =>
      rw [rootPart_eq hw, path_part hw, ← hT, List.append_assoc, ← tail_head_tail]
      cases q with
      | none => exact absurd (tail_noQuery f) (by rw [hT]; intro h; exact absurd (h _ rfl) (by decide))
      | some q => exact key ok.2
    | query h1 =>
      cases q with
      | some q => exact absurd (h1 c!"?" (by rw [← hT]; simp [tailText])) (by decide)
      | none =>
        rw [rootPart_eq hw, path_part hw, ← hT, List.append_assoc, List.append_assoc, ← List.append_assoc (writtenPath u), queryPart_eq hw]
        have := key (query_tailOK hw)
        rw [query_written hw] at this
        exact this
  | path p' t q f hp' hne ht ok =>
    rw [hp] at hp'
    cases hp'
    have hn := tail_path (f := f) ok hne
    have hs := tail_noSlash (q := q) (f := f) hne ht
    have hst := isStr_tail hstr
    generalize hT : tailText t q f = T at hpl hn hs
    cases hpl with
    | scheme h2 => exact absurd h2 (noSlash_not_two hs)
    | root h1 h2 => exact absurd hs (noSlash_cons h1)
    | path r' => exact absurd (question_noPath r') hn
    | query h1 => exact absurd (noQuery_noPath h1) hn
    | directory h1 h2 =>
      rw [rootPart_eq hw, path_part hw, ← hT, List.append_assoc]
      have e1 : Spec.directory (writtenPath u) ++ tailText t q f = tailText (Spec.directory (writtenPath u) ++ t) q f := by
        rw [tail_head_tail t, tail_head_tail (_ ++ t), List.append_assoc]
      have e2 : Spec.directory (writtenPath u) ++ t = (dots u ++ p.dropLast).flatMap (c!"/" :: ·) ++ c!"/" :: t := by
        rw [directory_written hp hsegs]; simp
      have := denotes_again (f := f) hw hf hd hp (directory_tailOK hw ok) (directory_slash hp hsegs _ t) (by
        intro hh
        rw [e2]
        refine ⟨by simp, null_dir hw hp hh ?_⟩
        intro h
        exact ht _ h (.inl rfl))
      rw [e1]
      rw [e2, pathOf_keep (segsOK_dropLast hsegs) (.inl rfl) hst, hfile] at this
      rw [e2]
      have e3 : Spec.parent false p = p.dropLast := by unfold Spec.parent; rw [if_neg (by simp)]
      rw [e3]
      exact this
  | rooted s t q f hs ht ok =>
    have hn := rooted_not_two (s := s) (q := q) (f := f) ht
    have hn2 := slash_noPath (r := tailText t q f) hs
    generalize hT : tailText t q f = T at hpl hn hn2
    cases hpl with
    | scheme h2 => exact absurd h2 hn
    | path r' => exact absurd (question_noPath _) hn2
    | query h1 => exact absurd (noQuery_noPath h1) hn2
    | directory h1 h2 => exact absurd h1 (noSlash_cons hs)
    | root h1 h2 =>
      rw [rootPart_eq hw, ← hT]
      have := denotes_again (path := s :: t) (q := q) (f := f) hw hf hd hp (by
        refine ⟨fun c hc => ?_, ok.2⟩
        rcases List.mem_cons.1 hc with rfl | hc
        · rcases hs with rfl | ⟨-, rfl⟩ <;> decide
        · exact ok.1 c hc) (by rintro c ⟨⟩; exact hs) (by
        intro _
        refine ⟨by simp, fun w e => ?_⟩
        injection e with e1 e2
        exact ht c!"/" (by rw [e2]; rfl) (.inl rfl))
      rw [show Spec.pathOf u.scheme (s :: t) = Spec.follow false [] (Spec.segmentsOf (Spec.isSpecial u.scheme) t) by rw [← hfile]; rfl] at this
      rw [show s :: tailText t q f = tailText (s :: t) q f by rw [tailText_eq, tailText_eq]; rfl]
      exact this
  | authority s1 s2 sl p' h1 h2 hsl ok =>
    generalize hT : s1 :: s2 :: (sl ++ p'.text) = T at hpl
    have htwo : TwoSlashes (Spec.isSpecial u.scheme) T := ⟨s1, s2, _, hT.symm, h1, h2⟩
    have hn2 : ¬ NoPath T := hT ▸ slash_noPath h1
    cases hpl with
    | path r' => exact absurd (question_noPath _) hn2
    | query h1 => exact absurd (noQuery_noPath h1) hn2
    | directory g1 g2 => exact absurd htwo (noSlash_not_two g1)
    | root g1 g2 =>
      injection hT with e1 e2
      exact absurd g2 (e2 ▸ noSlash_cons h2)
    | scheme g =>
      rw [schemePart_eq hw, ← hT]
      cases hsp : Spec.isSpecial u.scheme with
      | true =>
        rw [hsp] at h1 h2 ok
        have := Denotes.special (env := env) (base := none) u.scheme (s1 :: s2 :: sl) p' hsc (by rw [hlow]; exact hsp) (by rw [hlow]; exact hf) (by simp)
          (by
            intro c hc
            rcases List.mem_cons.1 hc with rfl | hc
            · exact h1
            · rcases List.mem_cons.1 hc with rfl | hc
              · exact h2
              · exact (hsl c hc).2) ok
        rw [hlow] at this
        exact this
      | false =>
        rw [hsp] at h1 h2 ok hsl
        cases sl with
        | cons c sl => cases (hsl c (by simp)).1
        | nil =>
          obtain rfl : s1 = c!"/" := by rcases h1 with h | h; exact h; cases h.1
          obtain rfl : s2 = c!"/" := by rcases h2 with h | h; exact h; cases h.1
          have := Denotes.authority (env := env) (base := none) u.scheme p' hsc (by rw [hlow]; exact hsp) ok
          rw [hlow] at this
          rw [show u.scheme ++ u!":" ++ c!"/" :: c!"/" :: ([] ++ p'.text) = u.scheme ++ u!"://" ++ p'.text by simp]
          exact this

end Urlstd
