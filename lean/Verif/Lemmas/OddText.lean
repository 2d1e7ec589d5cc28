/-
Which texts without a validation error are valid URL strings (C100).
-/
import Verif.Lemmas.ErrorFree4
import Verif.Spec.OddText

namespace Urlstd

open Spec (URLUnits PathRelative PathAbsolute PathSegment joinSlash PathPart PathText PathBehind PortPart PortString HasScheme SchemeText
  QueryPart FragmentPart ErrorFree ValidURL OddText OddAbsolute OddRelative EmptyFirst DriveOnHost NothingBehind DrivePath SilentHost
  SchemeRelativeFile SchemeRelativeSpecial SchemeRelative RelativeURL AbsoluteURL RelativeOther PathRelativeSchemeless
  PathAbsoluteNonWindows HierarchicalText BehindSlashes Letter)

/-! ### Paths -/

theorem joinSlash_prepend (l p : Str) (ps : List Str) : l ++ joinSlash (p :: ps) = joinSlash ((l ++ p) :: ps) := by
  cases ps with
  | nil => rfl
  | cons q ps => simp [joinSlash]

theorem units_segments {p : Str} (h : URLUnits (fun c => c = c!"?") p) :
    ∃ x xs, (∀ y ∈ x :: xs, PathSegment y) ∧ p = joinSlash (x :: xs) := by
  induction h with
  | nil =>
    refine ⟨[], [], ?_, rfl⟩
    intro y hy
    cases List.mem_singleton.1 hy
    exact .nil
  | @point c s hc hx hs ih =>
    obtain ⟨x, xs, hxs, rfl⟩ := ih
    by_cases h : c = c!"/"
    · subst h
      refine ⟨[], x :: xs, ?_, rfl⟩
      intro y hy
      rcases List.mem_cons.1 hy with rfl | hy
      · exact .nil
      · exact hxs y hy
    · refine ⟨c :: x, xs, ?_, joinSlash_prepend [c] x xs⟩
      intro y hy
      rcases List.mem_cons.1 hy with rfl | hy
      · exact .point hc (fun h' => h'.elim h hx) (hxs x (by simp))
      · exact hxs y (by simp [hy])
  | @byte a b s ha hb hs ih =>
    obtain ⟨x, xs, hxs, rfl⟩ := ih
    refine ⟨c!"%" :: a :: b :: x, xs, ?_, joinSlash_prepend [c!"%", a, b] x xs⟩
    intro y hy
    rcases List.mem_cons.1 hy with rfl | hy
    · exact .byte ha hb (hxs x (by simp))
    · exact hxs y (by simp [hy])

theorem pathRelative_iff {p : Str} : PathRelative p ↔ URLUnits (fun c => c = c!"?") p ∧ p.head? ≠ some c!"/" := by
  constructor
  · exact fun h => ⟨pathRelative_units h, h.2⟩
  · rintro ⟨h, h2⟩
    obtain ⟨x, xs, hxs, hp⟩ := units_segments h
    exact ⟨⟨x :: xs, hxs, hp⟩, h2⟩

theorem units_tail_slash {p : Str} (h : URLUnits (fun c => c = c!"?") (c!"/" :: p)) : URLUnits (fun c => c = c!"?") p := by
  cases h with
  | point _ _ h => exact h

/-- a path that starts with one "/" -/
theorem pathAbsolute_of {p : Str} (h : URLUnits (fun c => c = c!"?") (c!"/" :: p)) (h2 : p.head? ≠ some c!"/") :
    PathAbsolute (c!"/" :: p) := ⟨p, rfl, pathRelative_iff.2 ⟨units_tail_slash h, h2⟩⟩

theorem pathPart_noQF {P : Str} (h : PathPart P) : ∀ c ∈ P, ¬ (c = c!"?" ∨ c = c!"#") := by
  intro c hc
  rcases h with rfl | ⟨p, rfl, hp⟩
  · cases hc
  · obtain ⟨h1, h2, -⟩ := pathRelative_chars hp
    rcases List.mem_cons.1 hc with rfl | hc
    · decide
    · rintro (rfl | rfl)
      · exact h1 hc
      · exact h2 hc

/-- what the first part of a text begins with -/
theorem front_prefix {front Q l r : Str} (hl : ∀ c ∈ l, ¬ (c = c!"?" ∨ c = c!"#")) (hQ : TailText Q) (h : front ++ Q = l ++ r) :
    ∃ r', front = l ++ r' := by
  induction l generalizing front with
  | nil => exact ⟨front, rfl⟩
  | cons c l ih =>
    cases front with
    | nil =>
      have h : Q = c :: (l ++ r) := h
      exact absurd (tailText_head hQ (c := c) (by rw [h]; rfl)) (hl c (by simp))
    | cons x front =>
      have h : x :: (front ++ Q) = c :: (l ++ r) := h
      injection h with h1 h2
      obtain ⟨r', rfl⟩ := ih (fun y hy => hl y (by simp [hy])) h2
      exact ⟨r', by rw [h1]; rfl⟩

theorem letter_noQF {a : Nat} (h : Letter a) : ¬ (a = c!"?" ∨ a = c!"#") := by
  rintro (rfl | rfl) <;> exact absurd h (by decide)

theorem drivePath_front {front Q : Str} (hQ : TailText Q) (h : DrivePath (front ++ Q)) : DrivePath front := by
  obtain ⟨a, b, r, h, ha, hb⟩ := h
  obtain ⟨r', rfl⟩ := front_prefix (l := [c!"/", a, b, c!"/"]) (r := r) (by
    intro c hc
    simp only [List.mem_cons, List.not_mem_nil, or_false] at hc
    rcases hc with rfl | rfl | rfl | rfl
    · decide
    · exact letter_noQF ha
    · rcases hb with rfl | rfl <;> decide
    · decide) hQ h
  exact ⟨a, b, r', rfl, ha, hb⟩

theorem schemeText_noQF {sc : Str} (h : SchemeText sc) : ∀ c ∈ sc, ¬ (c = c!"?" ∨ c = c!"#") := by
  obtain ⟨c, cs, rfl, hc, hcs⟩ := h
  intro x hx
  rcases List.mem_cons.1 hx with rfl | hx
  · exact letter_noQF hc
  · rintro (rfl | rfl) <;> exact absurd (hcs _ hx) (by decide)

theorem hasScheme_front {front Q : Str} (hQ : TailText Q) (h : HasScheme (front ++ Q)) : HasScheme front := by
  obtain ⟨sc, rest, hsc, h⟩ := h
  obtain ⟨r', rfl⟩ := front_prefix (l := sc ++ u!":") (r := rest) (by
    intro c hc
    rcases List.mem_append.1 hc with hc | hc
    · exact schemeText_noQF hsc c hc
    · cases List.mem_singleton.1 hc
      decide) hQ h
  exact ⟨sc, r', hsc, rfl⟩

theorem hasScheme_slash {t : Str} : ¬ HasScheme (c!"/" :: t) := by
  rintro ⟨sc, rest, ⟨c, cs, rfl, hc, -⟩, h⟩
  have h : c!"/" :: t = c :: (cs ++ u!":" ++ rest) := h
  injection h with h1 _
  subst h1
  exact absurd hc (by decide)

/-! ### Texts behind "//" -/

/-- "//", an authority, a path, and what follows it -/
structure Slashed (t A P Q : Str) : Prop where
  text : t = u!"//" ++ (A ++ (P ++ Q))
  auth : ∀ c ∈ A, c ∉ u!"/?#"
  path : PathPart P
  tail : TailText Q

theorem pathTail_head {P Q : Str} (hP : PathPart P) (hQ : TailText Q) {c : Nat} (h : (P ++ Q).head? = some c) : c ∈ u!"/?#" := by
  rcases hP with rfl | ⟨p, rfl, -⟩
  · rcases tailText_head hQ h with rfl | rfl <;> decide
  · cases h
    decide

theorem slashed_unique {t A P Q a r : Str} (h : Slashed t A P Q) (ht : t = u!"//" ++ (a ++ r)) (ha : ∀ c ∈ a, c ∉ u!"/?#")
    (hr : ∀ c, r.head? = some c → c ∈ u!"/?#") : a = A ∧ r = P ++ Q := by
  have h1 := List.append_cancel_left (ht.symm.trans h.text)
  exact span_unique (stop := fun c => c ∈ u!"/?#") h1 ha h.auth hr (fun c hc => pathTail_head h.path h.tail hc)

theorem pathTail_double {P Q r : Str} (hP : PathPart P) (hQ : TailText Q) : P ++ Q ≠ u!"//" ++ r := by
  intro h
  have h1 := front_prefix (l := u!"//") (r := r) (by decide) hQ h
  obtain ⟨r', rfl⟩ := h1
  rcases hP with hP | ⟨p, hP, -, hp⟩
  · cases hP
  · have hP : c!"/" :: c!"/" :: r' = c!"/" :: p := hP
    injection hP with _ hP
    subst hP
    exact hp rfl

theorem Slashed.noEmptyFirst {t A P Q : Str} (h : Slashed t A P Q) : ¬ EmptyFirst t := by
  rintro ⟨a, r, ht, ha⟩
  obtain ⟨-, h2⟩ := slashed_unique h ht ha (by
    intro c hc
    cases hc
    decide)
  exact pathTail_double h.path h.tail h2.symm

theorem Slashed.drive {t A P Q : Str} (h : Slashed t A P Q) (hd : DriveOnHost t) : A ≠ [] ∧ DrivePath P := by
  obtain ⟨a, r, ht, hne, ha, hr⟩ := hd
  obtain ⟨h1, h2⟩ := slashed_unique h ht ha (by
    obtain ⟨x, y, r', rfl, -, -⟩ := hr
    intro c hc
    cases hc
    decide)
  subst h1 h2
  exact ⟨hne, drivePath_front h.tail hr⟩

theorem Slashed.nothing {t A P Q : Str} (h : Slashed t A P Q) (hn : NothingBehind t) : A = [] ∧ P = [] := by
  obtain ⟨r, ht, hr⟩ := hn
  obtain ⟨h1, h2⟩ := slashed_unique (a := []) h ht (by intro c hc; cases hc) (by
    intro c hc
    rcases hr c hc with rfl | rfl <;> decide)
  refine ⟨h1.symm, ?_⟩
  rcases h.path with hP | ⟨p, rfl, -⟩
  · exact hP
  · subst h2
    exact absurd (hr c!"/" rfl) (by decide)

theorem Slashed.noScheme {t A P Q : Str} (h : Slashed t A P Q) : ¬ HasScheme t := by
  rw [h.text]
  exact hasScheme_slash

theorem Slashed.noDrive {t A P Q : Str} (h : Slashed t A P Q) : ¬ DrivePath t := by
  rintro ⟨a, b, r, ht, ha, -⟩
  have h1 : c!"/" :: a :: b :: c!"/" :: r = c!"/" :: c!"/" :: (A ++ (P ++ Q)) := ht.symm.trans h.text
  injection h1 with _ h1
  injection h1 with h1 _
  subst h1
  exact absurd ha (by decide)

theorem noSlashes {t : Str} (h : ¬ u!"//" <+: t) : ¬ EmptyFirst t ∧ ¬ DriveOnHost t ∧ ¬ NothingBehind t := by
  refine ⟨?_, ?_, ?_⟩
  · rintro ⟨a, r, rfl, -⟩
    exact h ⟨_, rfl⟩
  · rintro ⟨a, r, rfl, -⟩
    exact h ⟨_, rfl⟩
  · rintro ⟨r, rfl, -⟩
    exact h ⟨_, rfl⟩

theorem pathAbsolute_noSlashes {front Q : Str} (h : PathAbsolute front) (hQ : TailText Q) : ¬ u!"//" <+: front ++ Q := by
  rintro ⟨r, hr⟩
  exact pathTail_double (.inr h) hQ hr.symm

theorem schemeless_noSlash {front Q : Str} (h : PathRelativeSchemeless front) (hQ : TailText Q) :
    ¬ u!"//" <+: front ++ Q ∧ ¬ DrivePath (front ++ Q) ∧ ¬ HasScheme (front ++ Q) := by
  refine ⟨?_, ?_, fun hs => h.2 (hasScheme_front hQ hs)⟩
  · rintro ⟨r, hr⟩
    obtain ⟨r', rfl⟩ := front_prefix (l := u!"//") (r := r) (by decide) hQ hr.symm
    exact h.1.2 rfl
  · intro hd
    obtain ⟨a, b, r, rfl, -⟩ := drivePath_front hQ hd
    exact h.1.2 rfl

/-! ### Valid URL strings are not odd -/

variable {host : Bool → Str → Prop}

theorem portPart_noStop {p : Str} (h : PortPart p) : ∀ c ∈ p, c ∉ u!"/?#" := by
  rcases h with rfl | ⟨d, rfl, hd, -⟩
  · intro c hc
    cases hc
  · intro c hc
    rcases List.mem_cons.1 hc with rfl | hc
    · decide
    · have := hd c hc
      unfold Spec.Digit at this
      simp only [List.mem_cons, List.not_mem_nil, or_false, not_or]
      omega

theorem slashed_special {front Q : Str} (h : SchemeRelativeSpecial (SilentHost host true) front) (hQ : TailText Q) :
    ∃ A P, Slashed (front ++ Q) A P Q := by
  obtain ⟨hh, port, path, rfl, hv, hp, hpath⟩ := h
  refine ⟨hh ++ port, path, by simp, ?_, hpath, hQ⟩
  intro c hc
  rcases List.mem_append.1 hc with hc | hc
  · exact hv.2.2 c hc
  · exact portPart_noStop hp c hc

theorem slashed_other {front Q : Str} (h : SchemeRelative (SilentHost host false) front) (hQ : TailText Q) :
    ∃ A P, Slashed (front ++ Q) A P Q := by
  obtain ⟨hp, path, rfl, hv, hpath⟩ := h
  refine ⟨hp, path, by simp, ?_, hpath, hQ⟩
  rcases hv with rfl | ⟨hh, port, rfl, hv, hport⟩
  · intro c hc
    cases hc
  · intro c hc
    rcases List.mem_append.1 hc with hc | hc
    · exact hv.2.2 c hc
    · exact portPart_noStop hport c hc

theorem slashed_file {front Q : Str} (h : SchemeRelativeFile (SilentHost host true) front) (hQ : TailText Q) :
    ∃ A P, Slashed (front ++ Q) A P Q ∧ (A ≠ [] → ¬ DrivePath P) ∧ (A = [] → P ≠ []) := by
  rcases h with ⟨hh, path, rfl, hv, hp⟩ | ⟨path, rfl, hp⟩
  · refine ⟨hh, path, ⟨by simp, hv.2.2, ?_, hQ⟩, ?_, fun h => absurd h hv.1⟩
    · exact hp.imp id And.left
    · rintro - ⟨a, b, r, rfl, hd⟩
      rcases hp with hp | hp
      · cases hp
      · exact hp.2 a b r rfl hd
  · refine ⟨[], path, ⟨by simp, (by intro c hc; cases hc), .inr hp, hQ⟩, fun h => absurd rfl h, ?_⟩
    rintro - rfl
    obtain ⟨p, hp, -⟩ := hp
    cases hp

theorem slashed_odd {t A P Q : Str} (h : Slashed t A P Q) : ¬ EmptyFirst t ∧ ¬ HasScheme t ∧ ¬ DrivePath t :=
  ⟨h.noEmptyFirst, h.noScheme, h.noDrive⟩

theorem file_odd {front Q : Str} (h : SchemeRelativeFile (SilentHost host true) front) (hQ : TailText Q) :
    ¬ EmptyFirst (front ++ Q) ∧ ¬ HasScheme (front ++ Q) ∧ ¬ DrivePath (front ++ Q) ∧ ¬ DriveOnHost (front ++ Q) ∧
      ¬ NothingBehind (front ++ Q) := by
  obtain ⟨A, P, hs, h1, h2⟩ := slashed_file h hQ
  refine ⟨hs.noEmptyFirst, hs.noScheme, hs.noDrive, ?_, ?_⟩
  · intro hd
    exact h1 (hs.drive hd).1 (hs.drive hd).2
  · intro hn
    exact h2 (hs.nothing hn).1 (hs.nothing hn).2

theorem pathAbsolute_noScheme {front Q : Str} (h : PathAbsolute front) : ¬ HasScheme (front ++ Q) := by
  obtain ⟨p, rfl, -⟩ := h
  exact hasScheme_slash

theorem other_odd {front Q : Str} (h : RelativeOther (SilentHost host false) front) (hQ : TailText Q) :
    ¬ EmptyFirst (front ++ Q) ∧ ¬ HasScheme (front ++ Q) := by
  rcases h with h | h | h
  · obtain ⟨A, P, hs⟩ := slashed_other h hQ
    exact ⟨hs.noEmptyFirst, hs.noScheme⟩
  · exact ⟨(noSlashes (pathAbsolute_noSlashes h hQ)).1, pathAbsolute_noScheme h⟩
  · obtain ⟨h1, -, h3⟩ := schemeless_noSlash h hQ
    exact ⟨(noSlashes h1).1, h3⟩

theorem absolute_notOdd {sc rest Q : Str} (hQ : TailText Q) (h : if Spec.toLower sc = u!"file" then SchemeRelativeFile (SilentHost host true) rest
      else if Spec.isSpecial (Spec.toLower sc) then SchemeRelativeSpecial (SilentHost host true) rest
      else RelativeOther (SilentHost host false) rest) : ¬ OddAbsolute (Spec.toLower sc) (rest ++ Q) := by
  by_cases hf : Spec.toLower sc = u!"file"
  · rw [if_pos hf] at h
    obtain ⟨h1, h2, -, h4, h5⟩ := file_odd h hQ
    rintro (h | ⟨-, h | h⟩ | h)
    · exact h1 h
    · exact h4 h
    · exact h5 h
    · exact h2 h
  · rw [if_neg hf] at h
    by_cases hs : Spec.isSpecial (Spec.toLower sc) = true
    · rw [if_pos hs] at h
      obtain ⟨A, P, hs⟩ := slashed_special h hQ
      rintro (h | ⟨h, -⟩ | h)
      · exact hs.noEmptyFirst h
      · exact hf h
      · exact hs.noScheme h
    · rw [if_neg hs] at h
      obtain ⟨h1, h2⟩ := other_odd h hQ
      rintro (h | ⟨h, -⟩ | h)
      · exact h1 h
      · exact hf h
      · exact h2 h

theorem relative_notOdd {b : Rec} {front Q : Str} (hQ : TailText Q)
    (h : RelativeURL (SilentHost host true) (SilentHost host false) b front) :
    ¬ HasScheme (front ++ Q) ∧ ¬ OddRelative b (front ++ Q) := by
  unfold RelativeURL at h
  by_cases hf : b.scheme = u!"file"
  · rw [if_pos hf] at h
    have key : ¬ HasScheme (front ++ Q) ∧ ¬ EmptyFirst (front ++ Q) ∧ ¬ DriveOnHost (front ++ Q) ∧ ¬ NothingBehind (front ++ Q) ∧
        (b.host ≠ some (.str []) → ¬ DrivePath (front ++ Q)) := by
      rcases h with h | ⟨hb, h⟩ | ⟨-, h⟩ | h
      · obtain ⟨h1, h2, h3, h4, h5⟩ := file_odd h hQ
        exact ⟨h2, h1, h4, h5, fun _ => h3⟩
      · obtain ⟨h1, h2, h3⟩ := noSlashes (pathAbsolute_noSlashes h hQ)
        exact ⟨pathAbsolute_noScheme h, h1, h2, h3, fun hn => absurd hb hn⟩
      · obtain ⟨h1, h2, h3⟩ := noSlashes (pathAbsolute_noSlashes h.1 hQ)
        refine ⟨pathAbsolute_noScheme h.1, h1, h2, h3, ?_⟩
        intro _ hd
        obtain ⟨x, y, r, rfl, hxy⟩ := drivePath_front hQ hd
        exact h.2 x y r rfl hxy
      · obtain ⟨h1, h2, h3⟩ := schemeless_noSlash h hQ
        obtain ⟨h4, h5, h6⟩ := noSlashes h1
        exact ⟨h3, h4, h5, h6, fun _ => h2⟩
    obtain ⟨h1, h2, h3, h4, h5⟩ := key
    refine ⟨h1, ?_⟩
    rintro (h | ⟨-, h | h | ⟨hb, h⟩⟩)
    · exact h2 h
    · exact h3 h
    · exact h4 h
    · exact h5 hb h
  · rw [if_neg hf] at h
    have key : ¬ EmptyFirst (front ++ Q) ∧ ¬ HasScheme (front ++ Q) := by
      by_cases hs : Spec.isSpecial b.scheme = true
      · rw [if_pos hs] at h
        rcases h with h | h | h
        · obtain ⟨A, P, hs⟩ := slashed_special h hQ
          exact ⟨hs.noEmptyFirst, hs.noScheme⟩
        · exact ⟨(noSlashes (pathAbsolute_noSlashes h hQ)).1, pathAbsolute_noScheme h⟩
        · obtain ⟨h1, -, h3⟩ := schemeless_noSlash h hQ
          exact ⟨(noSlashes h1).1, h3⟩
      · rw [if_neg hs] at h
        exact other_odd h hQ
    refine ⟨key.2, ?_⟩
    rintro (h | ⟨h, -⟩)
    · exact key.1 h
    · exact hf h

theorem valid_notOdd {base : Option Rec} {scheme s : Str}
    (h : ValidURL (SilentHost host true) (SilentHost host false) base scheme s) : ¬ OddText base s := by
  obtain ⟨front, q, f, hs, hq, hf, h⟩ := h
  have hQ : TailText (q ++ f) := ⟨q, f, rfl, hq, hf⟩
  have hs : s = front ++ (q ++ f) := by rw [hs, List.append_assoc]
  subst hs
  rcases h with ⟨sc, rest, hsc, rfl, rfl, h⟩ | ⟨b, rfl, rfl, h⟩
  · have ho := absolute_notOdd hQ h
    have hsplit : (sc ++ c!":" :: rest) ++ (q ++ f) = sc ++ c!":" :: (rest ++ (q ++ f)) := by simp
    rw [hsplit]
    rintro (⟨sc', rest', hsc', ht, ho'⟩ | ⟨hn, -⟩)
    · obtain ⟨h1, h2⟩ := schemeText_unique hsc hsc' ht
      subst h2
      rw [← h1] at ho'
      exact ho ho'
    · exact hn ⟨sc, rest ++ (q ++ f), hsc, by simp⟩
  · obtain ⟨h1, h2⟩ := relative_notOdd hQ h
    rintro (⟨sc', rest', hsc', ht, -⟩ | ⟨-, b', hb, ho⟩)
    · exact h1 ⟨sc', rest', hsc', by rw [ht]; simp⟩
    · cases hb
      exact h2 ho

/-! ### What is not odd is valid -/

variable {digits : Nat → Prop}

/-- the path behind an authority -/
theorem pathBehind_split {r : Str} (h : PathBehind r) : ∃ p q f, r = p ++ (q ++ f) ∧ QueryPart q ∧ FragmentPart f ∧
    URLUnits (fun c => c = c!"?") p ∧ (p = [] ∨ ∃ p', p = c!"/" :: p') := by
  obtain ⟨⟨p, q, f, rfl, hp, hq, hf⟩, hh⟩ := h
  refine ⟨p, q, f, rfl, hq, hf, hp, ?_⟩
  cases p with
  | nil => exact .inl rfl
  | cons c p =>
    rcases hh c rfl with rfl | rfl | rfl
    · exact .inr ⟨p, rfl⟩
    · cases hp with
      | point _ h _ => exact absurd rfl h
    · exact absurd (show c!"#" ∈ c!"#" :: p by simp) (units_no_hash hp)

theorem pathPart_of {a p q : Str} (ha : ∀ c ∈ a, c ∉ u!"/?#") (hp : URLUnits (fun c => c = c!"?") p) (hh : p = [] ∨ ∃ p', p = c!"/" :: p')
    (ho : ¬ EmptyFirst (u!"//" ++ (a ++ (p ++ q)))) : PathPart p := by
  rcases hh with rfl | ⟨p, rfl⟩
  · exact .inl rfl
  · refine .inr (pathAbsolute_of hp ?_)
    intro h
    cases p with
    | nil => cases h
    | cons c p =>
      cases h
      exact ho ⟨a, p ++ q, by simp, ha⟩

theorem file_valid {t : Str} (h : Spec.FileAuthority host t) (h1 : ¬ EmptyFirst (u!"//" ++ t)) (h2 : ¬ DriveOnHost (u!"//" ++ t))
    (h3 : ¬ NothingBehind (u!"//" ++ t)) : ∃ front q f, u!"//" ++ t = front ++ q ++ f ∧ QueryPart q ∧ FragmentPart f ∧
      SchemeRelativeFile (SilentHost host true) front := by
  obtain ⟨h, r, rfl, hc, hh, -, hr⟩ := h
  obtain ⟨p, q, f, rfl, hq, hf, hp, hps⟩ := pathBehind_split hr
  have hc : ∀ c ∈ h, c ∉ u!"/?#" := by
    intro c hm hn
    refine hc c hm ?_
    simp only [List.mem_cons, List.not_mem_nil, or_false] at hn ⊢
    omega
  have hpp := pathPart_of hc hp hps h1
  refine ⟨u!"//" ++ h ++ p, q, f, by simp, hq, hf, ?_⟩
  by_cases hne : h = []
  · subst hne
    refine .inr ⟨p, by simp, ?_⟩
    rcases hpp with rfl | hpp
    · refine absurd ⟨q ++ f, by simp, fun c hc => ?_⟩ h3
      exact tailText_head ⟨q, f, rfl, hq, hf⟩ hc
    · exact hpp
  · refine .inl ⟨h, p, rfl, ⟨hne, hh.resolve_left hne, hc⟩, ?_⟩
    refine hpp.imp id fun hpp => ⟨hpp, ?_⟩
    rintro a b r rfl hd
    refine h2 ⟨h, c!"/" :: a :: b :: c!"/" :: (r ++ (q ++ f)), by simp, hne, hc, a, b, _, rfl, hd⟩

theorem hostSpan_noStop {special : Bool} {h : Str} (hh : Spec.HostSpan special h) : ∀ c ∈ h, c ∉ u!"/?#" := by
  intro c hm hn
  refine (hh.1 c hm).1 ?_
  simp only [List.mem_cons, List.not_mem_nil, or_false] at hn ⊢
  omega

theorem authority_valid {special : Bool} {t : Str} (h : Spec.AuthorityText host digits special t) (h1 : ¬ EmptyFirst (u!"//" ++ t)) :
    ∃ hh port p q f, t = hh ++ port ++ p ++ q ++ f ∧ QueryPart q ∧ FragmentPart f ∧ PathPart p ∧ PortPart port ∧
      (hh ≠ [] → SilentHost host special hh) ∧ (special = true → hh ≠ []) ∧ (hh = [] → port = []) := by
  obtain ⟨h, port, r, rfl, hc, hh, hne, hr, hport⟩ := h
  obtain ⟨p, q, f, rfl, hq, hf, hp, hps⟩ := pathBehind_split hr
  have hP : PortPart port := hport.imp id fun ⟨d, hd, hd2, _⟩ => ⟨d, hd, hd2⟩
  refine ⟨h, port, p, q, f, by simp, hq, hf, ?_, hP, fun hn => ⟨hn, hh, hostSpan_noStop hc⟩, hne, ?_⟩
  · refine pathPart_of (a := h ++ port) (q := q ++ f) ?_ hp hps ?_
    · intro c hm
      rcases List.mem_append.1 hm with hm | hm
      · exact hostSpan_noStop hc c hm
      · exact portPart_noStop hP c hm
    · simpa using h1
  · intro hn
    rcases hport with hport | ⟨d, -, -, -, h, -⟩
    · exact hport
    · exact absurd hn h

theorem special_valid {t : Str} (h : Spec.AuthorityText host digits true t) (h1 : ¬ EmptyFirst (u!"//" ++ t)) :
    ∃ front q f, u!"//" ++ t = front ++ q ++ f ∧ QueryPart q ∧ FragmentPart f ∧ SchemeRelativeSpecial (SilentHost host true) front := by
  obtain ⟨hh, port, p, q, f, rfl, hq, hf, hp, hport, hs, hne, -⟩ := authority_valid h h1
  exact ⟨u!"//" ++ hh ++ port ++ p, q, f, by simp, hq, hf, hh, port, p, rfl, hs (hne rfl), hport, hp⟩

theorem other_valid {t : Str} (h : Spec.AuthorityText host digits false t) (h1 : ¬ EmptyFirst (u!"//" ++ t)) :
    ∃ front q f, u!"//" ++ t = front ++ q ++ f ∧ QueryPart q ∧ FragmentPart f ∧ SchemeRelative (SilentHost host false) front := by
  obtain ⟨hh, port, p, q, f, rfl, hq, hf, hp, hport, hs, -, hne⟩ := authority_valid h h1
  refine ⟨u!"//" ++ (hh ++ port) ++ p, q, f, by simp, hq, hf, hh ++ port, p, rfl, ?_, hp⟩
  by_cases h0 : hh = []
  · rw [h0, hne h0]
    exact .inl rfl
  · exact .inr ⟨hh, port, rfl, hs h0, hport⟩

/-- a path without "//" in front -/
theorem path_valid {t : Str} (h : PathText t) (h1 : ¬ u!"//" <+: t) (h2 : ¬ HasScheme t) :
    ∃ front q f, t = front ++ q ++ f ∧ QueryPart q ∧ FragmentPart f ∧ (PathAbsolute front ∨ PathRelativeSchemeless front) := by
  obtain ⟨p, q, f, rfl, hp, hq, hf⟩ := h
  refine ⟨p, q, f, by simp, hq, hf, ?_⟩
  by_cases hh : p.head? = some c!"/"
  · cases p with
    | nil => cases hh
    | cons c p =>
      cases hh
      refine .inl (pathAbsolute_of hp ?_)
      intro h
      cases p with
      | nil => cases h
      | cons c p =>
        cases h
        exact h1 ⟨p ++ (q ++ f), by simp⟩
  · refine .inr ⟨pathRelative_iff.2 ⟨hp, hh⟩, ?_⟩
    rintro ⟨sc, rest, hsc, rfl⟩
    exact h2 ⟨sc, rest ++ (q ++ f), hsc, by simp⟩

theorem nonWindows_of {front q f : Str} (h : PathAbsolute front) (hd : ¬ DrivePath (front ++ q ++ f)) : PathAbsoluteNonWindows front := by
  refine ⟨h, ?_⟩
  rintro a b r rfl hab
  exact hd ⟨a, b, r ++ q ++ f, by simp, hab⟩

theorem errorFree_valid {base : Option Rec} {s : Str} (h : ErrorFree host digits base s) (ho : ¬ OddText base s) :
    ∃ scheme, ValidURL (SilentHost host true) (SilentHost host false) base scheme s := by
  obtain ⟨-, ⟨sc, rest, hsc, hs, hh, hsp⟩ | ⟨hn, b, rfl, hb⟩⟩ := h
  · have ho : ¬ OddAbsolute (Spec.toLower sc) rest := fun h => ho (.inl ⟨sc, rest, hsc, hs, h⟩)
    have o1 : ¬ EmptyFirst rest := fun h => ho (.inl h)
    have o2 : ¬ HasScheme rest := fun h => ho (.inr (.inr h))
    suffices hsuff : ∃ front q f, rest = front ++ q ++ f ∧ QueryPart q ∧ FragmentPart f ∧
        (if Spec.toLower sc = u!"file" then SchemeRelativeFile (SilentHost host true) front
          else if Spec.isSpecial (Spec.toLower sc) then SchemeRelativeSpecial (SilentHost host true) front
          else RelativeOther (SilentHost host false) front) by
      obtain ⟨front, q, f, hr, hq, hf, hv⟩ := hsuff
      exact ⟨Spec.toLower sc, sc ++ c!":" :: front, q, f, by rw [hs, hr]; simp, hq, hf, .inl ⟨sc, front, hsc, rfl, rfl, hv⟩⟩
    by_cases hf : Spec.toLower sc = u!"file"
    · simp only [if_pos hf]
      rcases hh with ⟨r, rfl, hr⟩ | ⟨hn, -⟩
      · unfold BehindSlashes at hr
        rw [if_pos hf] at hr
        exact file_valid hr o1 (fun h => ho (.inr (.inl ⟨hf, .inl h⟩))) (fun h => ho (.inr (.inl ⟨hf, .inr h⟩)))
      · exact absurd (hsp (by rw [hf]; decide)) hn
    · simp only [if_neg hf]
      cases hsc' : Spec.isSpecial (Spec.toLower sc) with
      | true =>
        rcases hh with ⟨r, rfl, hr⟩ | ⟨hn, -⟩
        · unfold BehindSlashes at hr
          rw [if_neg hf, hsc'] at hr
          exact special_valid hr o1
        · exact absurd (hsp hsc') hn
      | false =>
        rcases hh with ⟨r, rfl, hr⟩ | ⟨hn, hp⟩
        · unfold BehindSlashes at hr
          rw [if_neg hf, hsc'] at hr
          obtain ⟨front, q, f, h1, h2, h3, h4⟩ := other_valid hr o1
          exact ⟨front, q, f, h1, h2, h3, .inl h4⟩
        · obtain ⟨front, q, f, h1, h2, h3, h4⟩ := path_valid hp hn o2
          exact ⟨front, q, f, h1, h2, h3, .inr h4⟩
  · have ho : ¬ OddRelative b s := fun h => ho (.inr ⟨hn, b, rfl, h⟩)
    suffices hsuff : ∃ front q f, s = front ++ q ++ f ∧ QueryPart q ∧ FragmentPart f ∧
        RelativeURL (SilentHost host true) (SilentHost host false) b front by
      obtain ⟨front, q, f, hr, hq, hf, hv⟩ := hsuff
      exact ⟨b.scheme, front, q, f, hr, hq, hf, .inr ⟨b, rfl, rfl, hv⟩⟩
    have empty : RelativeURL (SilentHost host true) (SilentHost host false) b [] := by
      have h0 : PathRelativeSchemeless [] := by
        refine ⟨pathRelative_iff.2 ⟨.nil, by decide⟩, ?_⟩
        rintro ⟨x, y, ⟨c, cs, rfl, -⟩, h⟩
        cases h
      unfold RelativeURL
      split
      · exact .inr (.inr (.inr h0))
      · split
        · exact .inr (.inr h0)
        · exact .inr (.inr h0)
    unfold Spec.ErrorFreeRelative at hb
    cases hp : b.path with
    | «opaque» x =>
      rw [hp] at hb
      obtain ⟨f, rfl, hf⟩ := hb
      exact ⟨[], [], _, rfl, .inl rfl, .inr ⟨f, rfl, hf⟩, empty⟩
    | list segs =>
      rw [hp] at hb
      have hb : HierarchicalText host digits b.scheme s := hb
      have o1 : ¬ EmptyFirst s := fun h => ho (.inl h)
      unfold RelativeURL
      by_cases hf : b.scheme = u!"file"
      · simp only [if_pos hf]
        rcases hb with ⟨r, rfl, hr⟩ | ⟨hns, hpt⟩
        · unfold BehindSlashes at hr
          rw [if_pos hf] at hr
          obtain ⟨front, q, f, h1, h2, h3, h4⟩ := file_valid hr o1 (fun h => ho (.inr ⟨hf, .inl h⟩)) (fun h => ho (.inr ⟨hf, .inr (.inl h)⟩))
          exact ⟨front, q, f, h1, h2, h3, .inl h4⟩
        · obtain ⟨front, q, f, h1, h2, h3, h4⟩ := path_valid hpt hns hn
          refine ⟨front, q, f, h1, h2, h3, ?_⟩
          rcases h4 with h4 | h4
          · by_cases hbh : b.host = some (.str [])
            · exact .inr (.inl ⟨hbh, h4⟩)
            · refine .inr (.inr (.inl ⟨hbh, nonWindows_of (q := q) (f := f) h4 ?_⟩))
              rw [← h1]
              exact fun h => ho (.inr ⟨hf, .inr (.inr ⟨hbh, h⟩)⟩)
          · exact .inr (.inr (.inr h4))
      · simp only [if_neg hf]
        cases hsc' : Spec.isSpecial b.scheme with
        | true =>
          rcases hb with ⟨r, rfl, hr⟩ | ⟨hns, hpt⟩
          · unfold BehindSlashes at hr
            rw [if_neg hf, hsc'] at hr
            obtain ⟨front, q, f, h1, h2, h3, h4⟩ := special_valid hr o1
            exact ⟨front, q, f, h1, h2, h3, .inl h4⟩
          · obtain ⟨front, q, f, h1, h2, h3, h4⟩ := path_valid hpt hns hn
            exact ⟨front, q, f, h1, h2, h3, .inr h4⟩
        | false =>
          rcases hb with ⟨r, rfl, hr⟩ | ⟨hns, hpt⟩
          · unfold BehindSlashes at hr
            rw [if_neg hf, hsc'] at hr
            obtain ⟨front, q, f, h1, h2, h3, h4⟩ := other_valid hr o1
            exact ⟨front, q, f, h1, h2, h3, .inl h4⟩
          · obtain ⟨front, q, f, h1, h2, h3, h4⟩ := path_valid hpt hns hn
            exact ⟨front, q, f, h1, h2, h3, .inr h4⟩

end Urlstd
