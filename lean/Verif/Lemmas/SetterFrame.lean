/-
What the setters leave alone.
-/
import Verif.Lemmas.Setter
import Verif.Spec.Setter

set_option linter.unusedSimpArgs false
set_option linter.unusedVariables false

namespace Urlstd

open Spec (Comp AgreeExcept Stripped AsciiWhite)

theorem agree_refl (l : List Comp) (u : Rec) : AgreeExcept l u u := by
  intro c _; cases c <;> rfl

theorem default_mem {s : Str} {p : Nat} (h : isDefaultPort s p = true) : (s, some p) ∈ Spec.specialSchemes := by
  unfold isDefaultPort specialPort at h
  unfold Spec.specialSchemes
  split at h
  · simp_all
  · split at h
    · simp_all
    · split at h
      · simp_all
      · split at h
        · simp_all
        · split at h
          · simp_all
          · split at h <;> simp_all

theorem dropWhile_split (p : Nat → Bool) (l : Str) :
    ∃ w, l = w ++ l.dropWhile p ∧ ∀ c ∈ w, p c = true :=
  ⟨l.takeWhile p, List.takeWhile_append_dropWhile.symm, fun _ hc => (takeWhile_mem (p := p) hc)⟩

/-- `potentially_rstrip_from_opaque_path` -/
theorem rstrip_cases (u : Rec) :
    potentiallyRstrip u = u ∨ ∃ s w, u.path = .opaque (s ++ w) ∧ u.fragment = none ∧ u.query = none ∧
      potentiallyRstrip u = { u with path := .opaque s } ∧ (∀ c ∈ w, AsciiWhite c) ∧ s.getLast? ≠ some 32 := by
  unfold potentiallyRstrip
  split
  · next s hp hf hq =>
    right
    obtain ⟨w, h1, h2⟩ := dropWhile_split (fun c => isPySpace c || (0x1C ≤ c && c ≤ 0x1F)) s.reverse
    refine ⟨(s.reverse.dropWhile fun c => isPySpace c || (0x1C ≤ c && c ≤ 0x1F)).reverse, w.reverse, ?_, hf, hq, rfl, ?_, ?_⟩
    · rw [hp, ← List.reverse_append, ← h1, List.reverse_reverse]
    · intro c hc
      have := h2 c (by simpa using hc)
      simp only [isPySpace, Bool.or_eq_true, Bool.and_eq_true, decide_eq_true_eq, beq_iff_eq] at this
      unfold AsciiWhite; omega
    · rw [List.getLast?_reverse]
      intro hc
      have := List.head?_dropWhile_not (fun c => isPySpace c || (0x1C ≤ c && c ≤ 0x1F)) s.reverse
      rw [hc] at this
      simp [isPySpace] at this
  · exact .inl rfl

theorem rstrip_agree (u : Rec) : AgreeExcept [.path] u (potentiallyRstrip u) ∧ Stripped u.path (potentiallyRstrip u).path := by
  rcases rstrip_cases u with h | ⟨s, w, h1, _, _, h2, h3, _⟩
  · rw [h]; exact ⟨agree_refl _ _, .inl rfl⟩
  · rw [h2]
    refine ⟨?_, .inr ⟨s, w, h1, rfl, h3⟩⟩
    intro c hc
    cases c <;> first | rfl | simp at hc

theorem portOut_agree (env : Env) (u : Rec) (d : Str) : AgreeExcept [.port] u (portOut env u d).2 := by
  have key : ∀ p, AgreeExcept [.port] u { u with port := p } := by
    intro p c hc; cases c <;> first | rfl | simp at hc
  unfold portOut
  split
  · exact agree_refl _ _
  · split
    · exact agree_refl _ _
    · split
      · exact agree_refl _ _
      · exact key _

theorem host_agree (u : Rec) (h : Option Host) : AgreeExcept [.host] u { u with host := h } := by
  intro c hc; cases c <;> first | rfl | simp at hc

theorem hostEndOut_agree (env : Env) (u : Rec) (b : Str) : AgreeExcept [.host] u (hostEndOut env u b).2 := by
  unfold hostEndOut
  split
  · exact agree_refl _ _
  · split
    · exact agree_refl _ _
    · split
      · exact agree_refl _ _
      · exact host_agree _ _

theorem agree_mono {l m : List Comp} {u v : Rec} (h : AgreeExcept l u v) (hs : l ⊆ m) : AgreeExcept m u v :=
  fun c hc => h c fun hl => hc (hs hl)

theorem Comp.Same.trans {u v w : Rec} {c : Comp} (h : c.Same u v) (h' : c.Same v w) : c.Same u w := by
  cases c <;> exact Eq.trans h h'

theorem hostSetOut_agree (env : Env) (ov : PState) (u : Rec) (t : Str) :
    AgreeExcept [.host, .port] u (hostSetOut env ov u t).2 ∧
      (ov = .hostname → AgreeExcept [.host] u (hostSetOut env ov u t).2) := by
  have key : AgreeExcept [.host] u (hostSetOut env ov u t).2 ∨
      (ov ≠ .hostname ∧ AgreeExcept [.host, .port] u (hostSetOut env ov u t).2) := by
    unfold hostSetOut
    split
    · left
      unfold fileHostOut
      split
      · exact host_agree _ _
      · split
        · exact agree_refl _ _
        · exact host_agree _ _
    · unfold hostOut
      split
      · exact .inl (hostEndOut_agree _ _ _)
      · split
        · split
          · exact .inl (agree_refl _ _)
          · split
            · exact .inl (agree_refl _ _)
            · next hne =>
              split
              · exact .inl (agree_refl _ _)
              · next h _ =>
                refine .inr ⟨hne, ?_⟩
                intro c hc
                exact Comp.Same.trans (host_agree u (some h) c (by simp at hc ⊢; exact hc.1))
                  (portOut_agree env _ _ c (by simp at hc ⊢; exact hc.2))
        · exact .inl (hostEndOut_agree _ _ _)
  rcases key with h | ⟨h1, h2⟩
  · exact ⟨agree_mono h (by simp), fun _ => h⟩
  · exact ⟨h2, fun h => absurd h h1⟩

end Urlstd
