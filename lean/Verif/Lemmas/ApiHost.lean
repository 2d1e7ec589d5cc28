/-
Which operations call the host parser.
-/
import Verif.Lemmas.HostParser
import Verif.Lemmas.Api

set_option linter.unusedSimpArgs false
set_option linter.unusedVariables false

namespace Urlstd

open Spec (Ctx Cfg State Asks asksHost runState)

/-- the states that a run with one of these state overrides stays in -/
def noHostState : State → Bool
  | .schemeStart | .scheme | .port | .pathStart | .path | .query | .fragment => true
  | _ => false

theorem noHostState_step {K : Ctx} {k k' : Cfg} {c : Option Nat} {rem : Str} (hK : K.override.isSome = true)
    (h : noHostState k.state = true) (hr : runState K c rem k = .go k') : noHostState k'.state = true := by
  unfold runState at hr
  rcases hk : k.state with _ | _ | _ | _ | _ | _ | _ | _ | _ | _ | _ | _ | _ | _ | _ | _ | _ | _ | _ | _ | _ <;>
    simp only [hk, hK, noHostState, Bool.not_true, Bool.false_and, Bool.true_and,
      if_true, Bool.false_eq_true, if_false, forall_const, false_implies] at hr h
  all_goals
    (try unfold runState.portDone at hr)
    (repeat' split at hr)
    all_goals
      first
        | (cases hr; done)
        | (cases hr; first | rfl | simp only [hk, noHostState])

/-- the host parser is not called in such a run -/
theorem noHostState_asks {K : Ctx} {input : Str} {k : Cfg} {t : Str} {m : Bool} (hK : K.override.isSome = true)
    (ha : Asks K input k t m) (h : noHostState k.state = true) : False := by
  induction ha with
  | @now k ha =>
    unfold asksHost at ha
    rcases hk : k.state with _ | _ | _ | _ | _ | _ | _ | _ | _ | _ | _ | _ | _ | _ | _ | _ | _ | _ | _ | _ | _ <;>
      rw [hk] at ha h <;> dsimp only at ha <;> first | cases ha | cases h
  | later hr he hn ih =>
    have := noHostState_step hK h hr
    exact ih this

theorem Runs_iff {hp hp' : Str → Bool → Option Host} {o : URLObj} {input : Str} {u : Rec} {st : State} {f : Bool} {o' : URLObj}
    (h : ∀ t m, Spec.ModifyAsks hp input u st t m → hp t m = hp' t m) :
    Spec.Runs hp' o input u st f o' ↔ Spec.Runs hp o input u st f o' := by
  unfold Spec.Runs
  have key : ∀ r, Spec.Modifies hp' input u st r ↔ Spec.Modifies hp input u st r := fun r =>
    Halts_iff (K := ⟨none, Spec.encoder .utf8, some st, hp⟩) (hp := hp') h
  simp only [key]

theorem Performs_iff {hp hp' : Str → Bool → Option Host} {o : URLObj} {op : Op}
    (h : ∀ t m, Spec.OpAsks hp o op t m → hp t m = hp' t m) (f : Bool) (o' : URLObj) :
    Spec.Performs hp' o op f o' ↔ Spec.Performs hp o op f o' := by
  have hno : ∀ {o : URLObj} {input : Str} {u : Rec} {st : State}, noHostState st = true →
      (Spec.Runs hp' o input u st f o' ↔ Spec.Runs hp o input u st f o') := fun hst =>
    Runs_iff fun t m ha => (noHostState_asks rfl ha hst).elim
  cases op with
  | hash v => unfold Spec.Performs; dsimp only; rw [hno rfl]
  | host v =>
    unfold Spec.Performs; dsimp only
    by_cases hq : Spec.isOpaque o.url = true
    · rw [if_pos hq, if_pos hq]
    · rw [if_neg hq, if_neg hq, Runs_iff fun t m ha => h t m ⟨by simpa using hq, ha⟩]
  | hostname v =>
    unfold Spec.Performs; dsimp only
    by_cases hq : Spec.isOpaque o.url = true
    · rw [if_pos hq, if_pos hq]
    · rw [if_neg hq, if_neg hq, Runs_iff fun t m ha => h t m ⟨by simpa using hq, ha⟩]
  | href v =>
    unfold Spec.Performs; dsimp only
    have key : ∀ r, Spec.Parses hp' v none .utf8 r ↔ Spec.Parses hp v none .utf8 r := fun r =>
      Halts_iff (K := ⟨none, Spec.encoder .utf8, none, hp⟩) (hp := hp') h
    simp only [key]
  | pathname v => unfold Spec.Performs; dsimp only; rw [hno rfl]
  | port v => unfold Spec.Performs; dsimp only; rw [hno rfl]
  | protocol v => unfold Spec.Performs; dsimp only; rw [hno rfl]
  | search v => unfold Spec.Performs; dsimp only; rw [hno rfl]
  | password v => exact Iff.rfl
  | username v => exact Iff.rfl
  | spAppend n v => exact Iff.rfl
  | spDelete n v => cases v <;> exact Iff.rfl
  | spSet n v => exact Iff.rfl
  | spSort => exact Iff.rfl

/-- the texts that an operation hands to the host parser come from its argument -/
theorem opAsks_mem {hp : Str → Bool → Option Host} {o : URLObj} {op : Op} {t : Str} {m : Bool}
    (hs : ∀ v, op = .href v ∨ op = .host v ∨ op = .hostname v → Spec.IsScalarStr v) (ha : Spec.OpAsks hp o op t m) :
    Spec.IsScalarStr t ∧ (t ≠ [] ∨ m = true) := by
  have hm : ∀ {v : Str} {c : Nat}, c ∈ Spec.dropTabs v → c ∈ v := fun h => (List.mem_filter.1 h).1
  cases op with
  | href v =>
    obtain ⟨h1, h2⟩ := asks_mem (K := ⟨none, Spec.encoder .utf8, none, hp⟩) ha
      ⟨fun h => by simp [Spec.Cfg.start, hostState] at h, fun _ => rfl⟩
    refine ⟨fun c hc => ?_, h2⟩
    have := h1 c hc
    rw [prepared_std] at this
    exact hs v (.inl rfl) c (prepared_mem c this)
  | host v =>
    obtain ⟨h1, h2⟩ := asks_mem (K := ⟨none, Spec.encoder .utf8, some .host, hp⟩) ha.2
      ⟨fun _ c hc => by simp [Spec.Cfg.start] at hc, fun _ => rfl⟩
    exact ⟨fun c hc => hs v (.inr (.inl rfl)) c (hm (h1 c hc)), h2⟩
  | hostname v =>
    obtain ⟨h1, h2⟩ := asks_mem (K := ⟨none, Spec.encoder .utf8, some .hostname, hp⟩) ha.2
      ⟨fun _ c hc => by simp [Spec.Cfg.start] at hc, fun _ => rfl⟩
    exact ⟨fun c hc => hs v (.inr (.inr rfl)) c (hm (h1 c hc)), h2⟩
  | _ => cases ha

end Urlstd
