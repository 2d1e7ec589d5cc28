/-
A text is cut in only one way in front of the first code point of a kind.
-/
import Verif.Py

namespace Urlstd

theorem span_unique {stop : Nat → Prop} {p r p' r' : Str} (h : p ++ r = p' ++ r') (hp : ∀ c ∈ p, ¬ stop c) (hp' : ∀ c ∈ p', ¬ stop c)
    (hr : ∀ c, r.head? = some c → stop c) (hr' : ∀ c, r'.head? = some c → stop c) : p = p' ∧ r = r' := by
  induction p generalizing p' with
  | nil =>
    cases p' with
    | nil => exact ⟨rfl, h⟩
    | cons c p' =>
      rw [List.nil_append] at h
      exact absurd (hr c (by rw [h]; rfl)) (hp' c (by simp))
  | cons c p ih =>
    cases p' with
    | nil =>
      rw [List.nil_append] at h
      exact absurd (hr' c (by rw [← h]; rfl)) (hp c (by simp))
    | cons c' p' =>
      simp only [List.cons_append, List.cons.injEq] at h
      obtain ⟨rfl, h⟩ := h
      obtain ⟨rfl, rfl⟩ := ih h (fun c hc => hp c (by simp [hc])) (fun c hc => hp' c (by simp [hc]))
      exact ⟨rfl, rfl⟩

end Urlstd
