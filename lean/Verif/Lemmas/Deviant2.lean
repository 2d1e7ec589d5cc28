/-
A host that the code reads differently from the standard shows in the result.
-/
import Verif.Lemmas.Deviant

set_option linter.unusedSimpArgs false
set_option linter.unusedTactic false

namespace Urlstd

open Spec (Ctx Cfg State Next runState Halts Asks asksHost Outcome OddHost OddIPv6 DelOK)

/-- the states behind the host -/
def lateState : State → Bool
  | .port | .pathStart | .path | .opaquePath | .query | .fragment => true
  | _ => false

theorem shorten_host (u : Rec) : (Spec.shorten u).host = u.host := by
  unfold Spec.shorten
  split
  · rfl
  · split <;> rfl

theorem pushSegment_host (u : Rec) (s : Str) : (Spec.pushSegment u s).host = u.host := by
  unfold Spec.pushSegment
  split <;> rfl

theorem pushOpaque_host (u : Rec) (s : Str) : (Spec.pushOpaque u s).host = u.host := by
  unfold Spec.pushOpaque
  split <;> rfl

theorem late_step {K : Ctx} (ho : K.override = none) {c : Option Nat} {rem : Str} {k : Cfg} (hk : lateState k.state = true) :
    (∀ u, runState K c rem k ≠ .ret u) ∧
    ∀ k', runState K c rem k = .go k' → lateState k'.state = true ∧ k'.url.host = k.url.host := by
  unfold runState
  rcases hs : k.state with _ | _ | _ | _ | _ | _ | _ | _ | _ | _ | _ | _ | _ | _ | _ | _ | _ | _ | _ | _ | _ <;>
    rw [hs] at hk <;> first | (cases hk; done) | skip
  all_goals
    simp only [ho, Option.isSome_none, Bool.false_and, Bool.false_eq_true, if_false, Bool.or_false]
    refine ⟨fun u hr => ?_, fun k' hr => ?_⟩ <;>
    (try unfold runState.portDone at hr) <;>
    (repeat' split at hr) <;>
    first
      | (cases hr; done)
      | (cases hr
         refine ⟨by first | rfl | (rw [hs]; rfl), ?_⟩
         first
          | rfl
          | (simp only [shorten_host, pushSegment_host, pushOpaque_host]; done)
          | (dsimp only; repeat' split
             all_goals first | rfl | simp only [shorten_host, pushSegment_host, pushOpaque_host]))
      | (exfalso; simp_all; done)

theorem late_halts {K : Ctx} (ho : K.override = none) {input : Str} {k : Cfg} {o : Outcome} (h : Halts K input k o) :
    lateState k.state = true → ∀ u, o = .ok u → u.host = k.url.host := by
  induction h with
  | failure hr => intro _ u hu; cases hu
  | ret hr => intro hk u hu; exact absurd hr ((late_step ho hk).1 _)
  | eof hr he => intro hk u hu; cases hu; exact ((late_step ho hk).2 _ hr).2
  | next hr he hn ih =>
    intro hk u hu
    obtain ⟨h1, h2⟩ := (late_step ho hk).2 _ hr
    rw [ih h1 u hu]
    exact h2

theorem late_asks {K : Ctx} (ho : K.override = none) {input : Str} {k : Cfg} {t : Str} {m : Bool} (h : Asks K input k t m) :
    lateState k.state = false := by
  induction h with
  | @now k ha =>
    unfold asksHost at ha
    rcases hs : k.state with _ | _ | _ | _ | _ | _ | _ | _ | _ | _ | _ | _ | _ | _ | _ | _ | _ | _ | _ | _ | _ <;>
      rw [hs] at ha <;> first | rfl | (cases ha; done)
  | @later k k' t m hr he hn ih =>
    by_contra hc
    have := ((late_step ho (by simpa using hc)).2 _ hr).1
    exact absurd this (by rw [ih]; decide)

/-- the host that goes into the record -/
def intoRecord (s : State) (h : Host) : Host := if s = .fileHost ∧ h = .str u!"localhost" then .str [] else h

theorem asks_step {K : Ctx} (ho : K.override = none) {c : Option Nat} {rem : Str} {k : Cfg} (ha : asksHost K c k = true) :
    (∀ u, runState K c rem k ≠ .ret u) ∧
    ∀ k', runState K c rem k = .go k' → lateState k'.state = true ∧
      ∃ h, K.hostParse k.buffer (!Spec.isSpecial k.url.scheme) = some h ∧ k'.url.host = some (intoRecord k.state h) := by
  unfold runState
  unfold asksHost at ha
  rcases hs : k.state with _ | _ | _ | _ | _ | _ | _ | _ | _ | _ | _ | _ | _ | _ | _ | _ | _ | _ | _ | _ | _ <;>
    rw [hs] at ha <;> first | (cases ha; done) | skip
  all_goals
    simp only [ho, Option.isSome_none, Bool.false_and, Bool.not_false, Bool.true_and, Bool.false_eq_true, if_false] at ha ⊢
  · refine ⟨fun u hr => ?_, fun k' hr => ?_⟩ <;> (repeat' split at hr) <;>
    first
      | (cases hr; done)
      | (exfalso; simp_all; done)
      | (next h hh => cases hr; exact ⟨rfl, h, hh, by simp [intoRecord]⟩)
  · refine ⟨fun u hr => ?_, fun k' hr => ?_⟩ <;> (repeat' split at hr) <;>
    first
      | (cases hr; done)
      | (exfalso; simp_all; done)
      | (next h hh => cases hr; exact ⟨rfl, h, hh, by simp [intoRecord]⟩)
  · refine ⟨fun u hr => ?_, fun k' hr => ?_⟩ <;> (repeat' split at hr) <;>
    first
      | (cases hr; done)
      | (exfalso; simp_all; done)
      | (next h hh hl => cases hr; exact ⟨rfl, h, hh, by simp [intoRecord, hl]⟩)

/-- if the host parsers differ on a text that is asked for, the results differ or both fail -/
theorem Halts_differ {K : Ctx} (ho : K.override = none) {hp : Str → Bool → Option Host} {input : Str} {k : Cfg} {t : Str} {m : Bool}
    (ha : Asks K input k t m) (hd : ∀ s h h', K.hostParse t m = some h → hp t m = some h' → intoRecord s h ≠ intoRecord s h')
    {u : Rec} (h1 : Halts K input k (.ok u)) (h2 : Halts (withHost K hp) input k (.ok u)) : False := by
  have ho' : (withHost K hp).override = none := ho
  induction ha with
  | @now k ha =>
    have f1 : ∃ h, K.hostParse k.buffer (!Spec.isSpecial k.url.scheme) = some h ∧ u.host = some (intoRecord k.state h) := by
      obtain ⟨g1, g2⟩ := asks_step ho (rem := Spec.remaining input k.pointer) ha
      cases h1 with
      | ret hr => exact absurd hr (g1 _)
      | eof hr he => exact (g2 _ hr).2
      | next hr he hn =>
        obtain ⟨g3, h, g4, g5⟩ := g2 _ hr
        exact ⟨h, g4, (late_halts ho hn g3 u rfl).trans g5⟩
    have f2 : ∃ h, hp k.buffer (!Spec.isSpecial k.url.scheme) = some h ∧ u.host = some (intoRecord k.state h) := by
      obtain ⟨g1, g2⟩ := asks_step ho' (rem := Spec.remaining input k.pointer) (k := k) (c := Spec.codePoint input k.pointer) ha
      cases h2 with
      | ret hr => exact absurd hr (g1 _)
      | eof hr he => exact (g2 _ hr).2
      | next hr he hn =>
        obtain ⟨g3, h, g4, g5⟩ := g2 _ hr
        exact ⟨h, g4, (late_halts ho' hn g3 u rfl).trans g5⟩
    obtain ⟨h, e1, e2⟩ := f1
    obtain ⟨h', e3, e4⟩ := f2
    rw [e2] at e4
    exact hd k.state h h' e1 e3 (Option.some.inj e4)
  | @later k k' t m hr he hn ih =>
    have hna : ¬ asksHost K (Spec.codePoint input k.pointer) k = true := by
      intro hc
      have := ((asks_step ho (rem := Spec.remaining input k.pointer) hc).2 _ hr).1
      have h' := late_asks ho hn
      exact absurd this (by rw [h']; decide)
    have e := runState_congr K hp (Spec.codePoint input k.pointer) (Spec.remaining input k.pointer) k (fun h => absurd h hna)
    have d1 : Halts K input { k' with pointer := k'.pointer + 1 } (.ok u) := by
      cases h1 with
      | ret hr' => rw [hr] at hr'; cases hr'
      | eof hr' he' => rw [hr] at hr'; cases hr'; exact absurd he' he
      | next hr' he' hn' => rw [hr] at hr'; cases hr'; exact hn'
    have d2 : Halts (withHost K hp) input { k' with pointer := k'.pointer + 1 } (.ok u) := by
      cases h2 with
      | ret hr' => rw [e, hr] at hr'; cases hr'
      | eof hr' he' => rw [e, hr] at hr'; cases hr'; exact absurd he' he
      | next hr' he' hn' => rw [e, hr] at hr'; cases hr'; exact hn'
    exact ih hd d1 d2

/-- where code and standard differ, the code returns an address or nothing -/
theorem hostParse_odd_address {env : Env} (he : EnvOK env) (hd : DelOK env) {t : Str} (hs : Spec.IsStr t) {m : Bool} (hne : t ≠ [] ∨ m = true)
    (h : OddHost env t m) {x : Host} (hx : (hostParse env t m).val = some x) : ∀ a, x ≠ .str a := by
  rintro a rfl
  rw [val_iff] at hx
  rcases h with ⟨y, rfl, -⟩ | ⟨rfl, hh, b, hb, hf, h⟩
  · unfold hostParse at hx
    rw [List.append_assoc] at hx
    have e : u!"[" ++ (y ++ u!"]") = c!"[" :: (y ++ u!"]") := rfl
    rw [e] at hx
    dsimp only at hx
    rw [if_pos rfl] at hx
    repeat' split at hx
    all_goals simp [Res.ok, Res.err] at hx
  · have hends : isEndsInANumber env b = true := by
      rcases h with ⟨p, h1, -, h2⟩ | ⟨h1, -⟩
      · exact (endsInNumber_iff hd b).2 ⟨p, h1, .inr h2⟩
      · exact ends_accepts he hd h1
    cases t with
    | nil =>
      rcases hne with h | h
      · exact h rfl
      · cases h
    | cons c t =>
      unfold hostParse at hx
      dsimp only at hx
      have hc : c ≠ c!"[" := by simpa using hh
      rw [if_neg hc] at hx
      have hdec : utf8Decode (stringPercentDecode (c :: t)) =
          Spec.utf8Decode (Spec.percentDecode (Spec.utf8 (c :: t))) := by
        unfold stringPercentDecode
        rw [percentDecode_eq, utf8Encode_eq _ hs, utf8Decode_eq]
      rw [← hdec, ← domainToAscii_std, val_iff] at hb
      simp only [Bool.false_eq_true, if_false] at hx
      generalize domainToAscii env (utf8Decode (stringPercentDecode (c :: t))) false = d at hx hb
      rcases d with ⟨r, log⟩
      dsimp only at hb
      subst hb
      dsimp only at hx
      rw [hends] at hx
      repeat' split at hx
      all_goals simp [Res.ok, Res.err] at hx
      all_goals simp_all

theorem odd_intoRecord {s : State} {h h' : Host} (hn : ∀ a, h' ≠ .str a) (he : intoRecord s h = intoRecord s h') : h = h' := by
  unfold intoRecord at he
  rw [if_neg (show ¬ (s = .fileHost ∧ h' = .str u!"localhost") from fun hc => hn _ hc.2)] at he
  split at he
  · exact absurd he.symm (hn _)
  · exact he

end Urlstd
