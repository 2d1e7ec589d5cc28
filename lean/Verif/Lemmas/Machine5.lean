/-
The URL parser computes the outcome of the standard's state machine.
-/
import Verif.Lemmas.Machine4
import Verif.Lemmas.Parsed

set_option linter.unusedSimpArgs false
set_option linter.unusedVariables false

namespace Urlstd

open Spec (IsStr IsScalarStr encodeCP encodeAfter encoder Letter Cfg Ctx Next Outcome Halts runState codePoint)

theorem stripC0_eq (s : Str) : Spec.stripC0 s = stripBoth isC0OrSpace s := by
  have : (fun c => decide (Spec.C0OrSpace c)) = isC0OrSpace := by
    funext c
    rw [Bool.eq_iff_iff, decide_eq_true_eq, isC0OrSpace_iff]
  unfold Spec.stripC0
  rw [this]
  rfl

theorem dropTabs_eq (s : Str) : Spec.dropTabs s = removeTabNewline s := (removeTabNewline_spec s).symm

theorem prepared_std (s : Str) : Spec.dropTabs (Spec.stripC0 s) = prepared s none := by
  rw [stripC0_eq, dropTabs_eq]; rfl

theorem prepared_mem {s : Str} : ∀ c ∈ prepared s none, c ∈ s := by
  intro c hc
  unfold prepared removeTabNewline at hc
  exact stripBoth_subset _ _ c (List.mem_filter.1 hc).1

theorem prepared_length_le (s : Str) : (prepared s none).length ≤ s.length := by
  unfold prepared removeTabNewline
  refine Nat.le_trans (List.length_filter_le _ _) ?_
  show (stripBoth isC0OrSpace s).length ≤ s.length
  rw [stripBoth_eq]
  unfold stripRight
  rw [List.length_reverse]
  refine Nat.le_trans (List.dropWhile_sublist _).length_le ?_
  rw [List.length_reverse]
  exact (List.dropWhile_sublist _).length_le

theorem takeScheme_file {s : Str} (h : takeScheme s = some (u!"file", [])) : Spec.toLower s = u!"file:" := by
  unfold takeScheme at h
  split at h
  · cases h
  · rename_i c cs
    split at h
    · cases h
    · split at h
      · cases h
      · rename_i d r hd
        split at h
        · rename_i hc
          simp only [Option.some.injEq, Prod.mk.injEq] at h
          rw [toLower_eq_lower, ← List.takeWhile_append_dropWhile (p := isSchemeChar) (l := cs), hd, h.2, hc]
          rw [show c :: (cs.takeWhile isSchemeChar ++ [58]) = (c :: cs.takeWhile isSchemeChar) ++ [58] from rfl, lower_append, h.1]
          decide
        · cases h

variable {env : Env} {e : Encoding} {base : Option Rec}

/-- The outcome of the machine is what the parser computes. -/
theorem parses_eval {s : Str} (hs : IsScalarStr s) (he : EncOK e) (hn : NoRef e) (hd : env.maxStrDigits = 0 ∨ s.length ≤ env.maxStrDigits)
    (hb : ∀ b, base = some b → isSpecialScheme b.scheme = true → ∃ p, b.path = .list p)
    (hf : ∀ b, base = some b → b.scheme = u!"file" → ¬ BareFile s) :
    Spec.Parses (hostOf env) s base e (outcome (eval env e base none .schemeStart (prepared s none) {})) := by
  unfold Spec.Parses
  rw [prepared_std]
  have hS : SimOK env e base (prepared s none) := by
    refine ⟨hs.mono prepared_mem, he, hn, ?_, hb⟩
    rcases hd with h | h
    · exact .inl h
    · exact .inr (Nat.le_trans (prepared_length_le s) h)
  refine m_start (ov := none) hS (u := {}) (pp := []) (fun _ => rfl) (fun _ _ _ => ⟨by simp, by simp⟩) ?_
  intro _ b hb hfile
  have := hf b hb hfile
  unfold BareFile at this
  rw [prepared_std] at this
  exact ⟨fun h => this (.inl h), fun h => this (.inr (takeScheme_file h))⟩

theorem base_list {b : Rec} (h : Parsed env b) (hsp : isSpecialScheme b.scheme = true) : ∃ p, b.path = .list p := by
  have hw := h.wf (hostSpec_true env)
  have h1 : Spec.Special b.scheme := (special_iff _).1 hsp
  obtain ⟨-, segs, hs, -⟩ := hw.specialHasHost h1
  exact ⟨segs, hs⟩

end Urlstd
