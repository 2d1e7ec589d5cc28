/-
Lemmas on splitting and joining.
-/
import Verif.Py

namespace Urlstd

theorem splitOn_ne_nil (sep : Nat) (s : Str) : splitOn sep s ≠ [] := by
  cases s with
  | nil => simp [splitOn]
  | cons c cs =>
    simp only [splitOn]
    split
    · simp
    · split <;> simp

theorem splitOn_cons (sep : Nat) (s : Str) : ∃ h t, splitOn sep s = h :: t := by
  cases hs : splitOn sep s with
  | nil => exact absurd hs (splitOn_ne_nil sep s)
  | cons h t => exact ⟨h, t, rfl⟩

theorem splitOn_sep (sep : Nat) (s : Str) : splitOn sep (sep :: s) = [] :: splitOn sep s := by
  simp [splitOn]

theorem splitOn_other {sep c : Nat} (h : c ≠ sep) {s h' : Str} {t : List Str}
    (hs : splitOn sep s = h' :: t) : splitOn sep (c :: s) = (c :: h') :: t := by
  simp [splitOn, h, hs]

theorem splitOn_prefix {sep : Nat} {s h : Str} {t : List Str} (hs : splitOn sep s = h :: t) :
    h <+: s := by
  induction s generalizing h t with
  | nil => simp [splitOn] at hs; simp [hs.1]
  | cons c cs ih =>
    by_cases hc : c = sep
    · subst hc; rw [splitOn_sep] at hs; injection hs with h1 h2; rw [← h1]; exact List.nil_prefix
    · obtain ⟨h', t', e⟩ := splitOn_cons sep cs
      rw [splitOn_other hc e] at hs
      simp at hs
      rw [← hs.1]
      exact List.prefix_cons_inj c |>.2 (ih e)

theorem splitOn_no_sep {sep : Nat} {s : Str} (h : sep ∉ s) : splitOn sep s = [s] := by
  induction s with
  | nil => rfl
  | cons c cs ih =>
    simp at h
    exact splitOn_other (Ne.symm h.1) (ih h.2)

theorem splitOn_append {sep : Nat} {p : Str} (h : sep ∉ p) (s : Str) :
    splitOn sep (p ++ sep :: s) = p :: splitOn sep s := by
  induction p with
  | nil => exact splitOn_sep sep s
  | cons c cs ih =>
    simp at h
    exact splitOn_other (Ne.symm h.1) (ih h.2)

/-- cutting at the first separator of `a ++ sep :: b`, in general -/
theorem splitOn_append_gen (sep : Nat) (a b : Str) :
    splitOn sep (a ++ sep :: b) = splitOn sep a ++ splitOn sep b := by
  induction a with
  | nil => rw [List.nil_append, splitOn_sep]; rfl
  | cons c cs ih =>
    by_cases hc : c = sep
    · subst hc; rw [List.cons_append, splitOn_sep, splitOn_sep, ih]; rfl
    · obtain ⟨h, t, e⟩ := splitOn_cons sep cs
      rw [e] at ih
      rw [List.cons_append, splitOn_other hc ih, splitOn_other hc e]
      rfl

theorem splitOn_joinWith {sep : Nat} {parts : List Str} (hne : parts ≠ [])
    (h : ∀ p ∈ parts, sep ∉ p) : splitOn sep (joinWith [sep] parts) = parts := by
  induction parts with
  | nil => exact absurd rfl hne
  | cons p ps ih =>
    cases ps with
    | nil => simpa [joinWith] using splitOn_no_sep (h p (by simp))
    | cons q qs =>
      simp only [joinWith, List.append_assoc, List.singleton_append]
      rw [splitOn_append (h p (by simp)), ih (by simp) (fun r hr => h r (by simp [hr]))]

theorem joinWith_splitOn (sep : Nat) (s : Str) : joinWith [sep] (splitOn sep s) = s := by
  induction s with
  | nil => rfl
  | cons c cs ih =>
    by_cases hc : c = sep
    · subst hc
      rw [splitOn_sep]
      obtain ⟨h, t, e⟩ := splitOn_cons c cs
      rw [e] at ih ⊢
      simp [joinWith, ih]
    · obtain ⟨h, t, e⟩ := splitOn_cons sep cs
      rw [e] at ih
      rw [splitOn_other hc e]
      cases t with
      | nil => simp [joinWith] at ih ⊢; exact ih
      | cons q qs => simp [joinWith] at ih ⊢; exact ih

theorem mem_splitOn {sep : Nat} {s p : Str} (hp : p ∈ splitOn sep s) : ∀ c ∈ p, c ∈ s ∧ c ≠ sep := by
  induction s generalizing p with
  | nil => simp [splitOn] at hp; simp [hp]
  | cons c cs ih =>
    by_cases hc : c = sep
    · subst hc
      rw [splitOn_sep] at hp
      rcases List.mem_cons.1 hp with rfl | hp
      · simp
      · intro d hd
        have := ih hp d hd
        simp [this]
    · obtain ⟨h, t, e⟩ := splitOn_cons sep cs
      rw [splitOn_other hc e] at hp
      rw [e] at ih
      rcases List.mem_cons.1 hp with rfl | hp
      · intro d hd
        rcases List.mem_cons.1 hd with rfl | hd
        · simp [hc]
        · have := ih (p := h) (by simp) d hd
          simp [this]
      · intro d hd
        have := ih (p := p) (by simp [hp]) d hd
        simp [this]

theorem splitFirst_append {sep : Nat} {p : Str} (h : sep ∉ p) (s : Str) :
    splitFirst sep (p ++ sep :: s) = (p, s) := by
  induction p with
  | nil => simp [splitFirst]
  | cons c cs ih =>
    simp at h
    have hc : c ≠ sep := Ne.symm h.1
    simp [splitFirst, hc, ih h.2]

theorem splitFirst_no_sep {sep : Nat} {s : Str} (h : sep ∉ s) : splitFirst sep s = (s, []) := by
  induction s with
  | nil => rfl
  | cons c cs ih =>
    simp at h
    have hc : c ≠ sep := Ne.symm h.1
    simp [splitFirst, hc, ih h.2]

theorem splitFirst_eq (sep : Nat) (s : Str) :
    splitFirst sep s = (s.takeWhile (· ≠ sep), (s.dropWhile (· ≠ sep)).drop 1) := by
  induction s with
  | nil => rfl
  | cons c cs ih =>
    by_cases hc : c = sep
    · subst hc; simp [splitFirst]
    · simp [splitFirst, hc, ih]

end Urlstd
