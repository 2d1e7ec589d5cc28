/-
The standard's machine ends, whatever host parser, base, encoder and override it is given.
-/
import Verif.Spec.Machine

set_option linter.unusedSimpArgs false

namespace Urlstd

open Spec (Ctx Cfg State Next runState Halts Outcome)

/-- a state is left for one of lower rank -/
def stateRank : State → Nat
  | .schemeStart => 13 | .scheme => 12 | .noScheme => 11 | .specialRelativeOrAuthority => 10 | .relative => 9
  | .relativeSlash => 8 | .specialAuthoritySlashes => 8 | .specialAuthorityIgnoreSlashes => 7 | .pathOrAuthority => 7
  | .authority => 6 | .host => 5 | .hostname => 5 | .port => 4 | .file => 6 | .fileSlash => 5 | .fileHost => 4
  | .pathStart => 3 | .path => 2 | .opaquePath => 2 | .query => 1 | .fragment => 0

/-- One run goes to a state of lower rank or keeps state and pointer; the pointer goes forward only if there is something
to the right. -/
theorem run_rank {K : Ctx} {c : Option Nat} {rem : Str} {k k' : Cfg} (hr : runState K c rem k = .go k') :
    (stateRank k'.state < stateRank k.state ∨ (k'.state = k.state ∧ k'.pointer = k.pointer)) ∧
    (k'.pointer ≤ k.pointer ∨ k'.pointer = -1 ∨ (k'.pointer = k.pointer + 1 ∧ rem ≠ [])) := by
  unfold runState at hr
  rcases hs : k.state with _ | _ | _ | _ | _ | _ | _ | _ | _ | _ | _ | _ | _ | _ | _ | _ | _ | _ | _ | _ | _ <;>
    rw [hs] at hr <;> dsimp only at hr
  all_goals
    (try unfold runState.portDone at hr)
    (repeat' split at hr)
  all_goals
    first
      | (cases hr; done)
      | (cases hr
         refine ⟨by first | exact .inr ⟨hs, rfl⟩ | exact .inr ⟨rfl, rfl⟩ | (left; simp [stateRank]; done), ?_⟩
         first
          | (left; exact Int.le_refl _)
          | (left; dsimp only; omega)
          | (right; left; rfl)
          | (right; right
             refine ⟨rfl, ?_⟩
             rintro rfl
             simp_all; done))

theorem machine_halts (K : Ctx) (input : Str) : ∀ (n m : Nat) (k : Cfg), stateRank k.state = n →
    ((input.length : Int) - k.pointer).toNat = m → k.pointer ≤ input.length → ∃ o, Halts K input k o := by
  intro n
  induction n using Nat.strongRecOn with
  | ind n ihn =>
    intro m
    induction m using Nat.strongRecOn with
    | ind m ihm =>
      intro k hn hm hp
      cases hr : runState K (Spec.codePoint input k.pointer) (Spec.remaining input k.pointer) k with
      | failure u => exact ⟨_, .failure hr⟩
      | ret u => exact ⟨_, .ret hr⟩
      | go k' =>
        by_cases he : k'.pointer = input.length
        · exact ⟨_, .eof hr he⟩
        · obtain ⟨h1, h2⟩ := run_rank hr
          have hle : k'.pointer + 1 ≤ input.length := by
            rcases h2 with h2 | h2 | ⟨h2, h3⟩
            · omega
            · omega
            · have : k.pointer + 1 < input.length :=
                Classical.byContradiction fun hc => h3 (List.drop_eq_nil_of_le (by omega))
              omega
          have : ∃ o, Halts K input { k' with pointer := k'.pointer + 1 } o := by
            rcases h1 with h1 | ⟨h1, h3⟩
            · exact ihn _ (hn ▸ h1) _ _ rfl rfl hle
            · refine ihm _ ?_ { k' with pointer := k'.pointer + 1 } (by rw [← hn, ← h1]) rfl hle
              show ((input.length : Int) - (k'.pointer + 1)).toNat < m
              omega
          obtain ⟨o, ho⟩ := this
          exact ⟨o, .next hr he ho⟩

/-- the parser ends on every input -/
theorem parses_total (hp : Str → Bool → Option Host) (s : Str) (base : Option Rec) (e : Encoding) :
    ∃ o, Spec.Parses hp s base e o :=
  machine_halts _ _ _ _ _ rfl rfl (by simp [Spec.Cfg.start])

theorem modifies_total (hp : Str → Bool → Option Host) (s : Str) (u : Rec) (st : State) : ∃ o, Spec.Modifies hp s u st o :=
  machine_halts _ _ _ _ _ rfl rfl (by simp [Spec.Cfg.start])

end Urlstd
