/-
For property C69: what the origin of a blob URL says about the host in its path.
-/
import Verif.Lemmas.MachineHalts
import Verif.Lemmas.Deviant2
import Verif.Lemmas.Serialize

namespace Urlstd

open Spec (Ctx Cfg State Next runState Halts Asks asksHost Outcome OddHost OddIPv6 DelOK Parses)

/-- the hosts in two records, one by each host parser -/
theorem Halts_hosts {K : Ctx} (ho : K.override = none) {hp : Str → Bool → Option Host} {input : Str} {k : Cfg} {t : Str} {m : Bool}
    (ha : Asks K input k t m) {u u' : Rec} (h1 : Halts K input k (.ok u)) (h2 : Halts (withHost K hp) input k (.ok u')) :
    ∃ st h h', K.hostParse t m = some h ∧ hp t m = some h' ∧ u.host = some (intoRecord st h) ∧ u'.host = some (intoRecord st h') := by
  have ho' : (withHost K hp).override = none := ho
  induction ha with
  | @now k ha =>
    have f1 : ∃ h, K.hostParse k.buffer (!Spec.isSpecial k.url.scheme) = some h ∧ u.host = some (intoRecord k.state h) := by
      obtain ⟨g1, g2⟩ := asks_step ho (rem := Spec.remaining input k.pointer) ha
      cases h1 with
      | ret hr => exact absurd hr (g1 _)
      | eof hr he => exact (g2 _ hr).2
      | next hr he hn =>
        obtain ⟨g3, h, g4, g5⟩ := g2 _ hr
        exact ⟨h, g4, (late_halts ho hn g3 u rfl).trans g5⟩
    have f2 : ∃ h, hp k.buffer (!Spec.isSpecial k.url.scheme) = some h ∧ u'.host = some (intoRecord k.state h) := by
      obtain ⟨g1, g2⟩ := asks_step ho' (rem := Spec.remaining input k.pointer) (k := k) (c := Spec.codePoint input k.pointer) ha
      cases h2 with
      | ret hr => exact absurd hr (g1 _)
      | eof hr he => exact (g2 _ hr).2
      | next hr he hn =>
        obtain ⟨g3, h, g4, g5⟩ := g2 _ hr
        exact ⟨h, g4, (late_halts ho' hn g3 u' rfl).trans g5⟩
    obtain ⟨h, e1, e2⟩ := f1
    obtain ⟨h', e3, e4⟩ := f2
    exact ⟨k.state, h, h', e1, e3, e2, e4⟩
  | @later k k' t m hr he hn ih =>
    have hna : ¬ asksHost K (Spec.codePoint input k.pointer) k = true := by
      intro hc
      have := ((asks_step ho (rem := Spec.remaining input k.pointer) hc).2 _ hr).1
      have h' := late_asks ho hn
      exact absurd this (by rw [h']; decide)
    have e := runState_congr K hp (Spec.codePoint input k.pointer) (Spec.remaining input k.pointer) k (fun h => absurd h hna)
    have d1 : Halts K input { k' with pointer := k'.pointer + 1 } (.ok u) := by
      cases h1 with
      | ret hr' => rw [hr] at hr'; cases hr'
      | eof hr' he' => rw [hr] at hr'; cases hr'; exact absurd he' he
      | next hr' he' hn' => rw [hr] at hr'; cases hr'; exact hn'
    have d2 : Halts (withHost K hp) input { k' with pointer := k'.pointer + 1 } (.ok u') := by
      cases h2 with
      | ret hr' => rw [e, hr] at hr'; cases hr'
      | eof hr' he' => rw [e, hr] at hr'; cases hr'; exact absurd he' he
      | next hr' he' hn' => rw [e, hr] at hr'; cases hr'; exact hn'
    exact ih d1 d2

theorem asked_asks {K : Ctx} {input : Str} {t : Str} {m : Bool} : ∀ {n : Nat} {k : Cfg} {l : List (Str × Bool)},
    Spec.asked K input n k = some l → (t, m) ∈ l → Asks K input k t m := by
  intro n
  induction n with
  | zero => intro k l h; cases h
  | succ n ih =>
    intro k l h hm
    unfold Spec.asked at h
    have hnow : ∀ x, x = (t, m) → x ∈ (if asksHost K (Spec.codePoint input k.pointer) k then [(k.buffer, !Spec.isSpecial k.url.scheme)] else []) →
        Asks K input k t m := by
      rintro _ rfl hx
      split at hx
      · next ha =>
        have e := List.mem_singleton.1 hx
        injection e with e1 e2
        subst e1 e2
        exact .now ha
      · cases hx
    dsimp only at h
    split at h
    · next k' hr =>
      split at h
      · cases h; exact hnow _ rfl hm
      · next hp =>
        cases hq : Spec.asked K input n { k' with pointer := k'.pointer + 1 } with
        | none => rw [hq] at h; cases h
        | some l' =>
          rw [hq] at h
          cases h
          rcases List.mem_append.1 hm with hm | hm
          · exact hnow _ rfl hm
          · exact .later hr hp (ih hq hm)
    · cases h; exact hnow _ rfl hm

/-- a text that both host parsers accept and read differently is a name for the standard and a number for the code -/
theorem odd_both {env : Env} (he : EnvOK env) (hd : DelOK env) {t : Str} (hs : Spec.IsScalarStr t) {m : Bool} (hne : t ≠ [] ∨ m = true)
    (h : OddHost env t m) {x y : Host} (hx : Spec.hostParser (env.nameToAscii false) t m = some x)
    (hy : (hostParse env t m).val = some y) :
    ∃ a n, x = .str a ∧ y = .ipv4 n ∧ (∀ c ∈ a, ¬ Spec.ForbiddenDomainCP c) ∧ Spec.endsInANumber a = false := by
  have hne' := (hostParse_odd he hd hs hne).2 h
  have hadr := hostParse_odd_address he hd hs.isStr hne h hy
  rcases h with ⟨z, rfl, hz⟩ | ⟨rfl, hh, b, hb, hf, h⟩
  · exfalso
    have e : u!"[" ++ z ++ u!"]" = c!"[" :: (z ++ u!"]") := rfl
    have hx6 : (Spec.ipv6Parse z).map Host.ipv6 = some x := by
      unfold Spec.hostParser Spec.hostParserWith at hx
      rw [e, if_pos (by rfl), if_neg (by
        rw [Decidable.not_not, ← e]; exact List.getLast?_concat)] at hx
      rwa [List.tail_cons, List.dropLast_concat] at hx
    have hne6 := (ipv6_odd he z).2 hz
    have hs6 : Spec.ipv6Parse z ≠ none := by
      intro hc; rw [hc] at hx6; cases hx6
    have hy6 : (ipv6Parse env z).val ≠ none := by
      intro hc
      unfold hostParse at hy
      rw [e] at hy
      dsimp only at hy
      rw [if_pos rfl, if_neg (by
        rw [Decidable.not_not, ← e, getLastD_eq _ _ (by simp)]; exact List.getLast_concat)] at hy
      rw [List.dropLast_concat] at hy
      rcases h6 : ipv6Parse env z with ⟨r, log⟩
      rw [h6] at hc hy
      cases r with
      | ok a => simp [Res.val] at hc
      | error e => simp [Res.val, Res.err] at hy
    rw [(Props.C15_exact env he z).1] at hne6
    rcases hne6 with ⟨h1, h2⟩ | h1
    · exact hs6 ((Props.C15_exact env he z).2.1 h1)
    · exact hy6 ((Props.C15_exact env he z).2.2 h1).1
  · cases hends : Spec.endsInANumber b with
    | true =>
      exfalso
      obtain ⟨p, hp, hst⟩ := (ends_std b).1 hends
      rcases h with ⟨q, hq, hn, -⟩ | ⟨-, hodd⟩
      · rw [hp] at hq; cases hq; exact hn hst
      · unfold Spec.hostParser Spec.hostParserWith at hx
        rw [if_neg hh, if_neg (by simp), hb] at hx
        dsimp only at hx
        rw [if_neg (fun ⟨c, hc, h⟩ => hf c hc h), if_pos hends] at hx
        cases h4 : Spec.ipv4Parse b with
        | none => rw [h4] at hx; cases hx
        | some n => exact (ipv4Parse_odd he hd b).2 hodd ((ipv4Parse_accepts he h4).trans h4.symm)
    | false =>
      have hxb : x = .str b := by
        unfold Spec.hostParser Spec.hostParserWith at hx
        rw [if_neg hh, if_neg (by simp), hb] at hx
        dsimp only at hx
        rw [if_neg (fun ⟨c, hc, h⟩ => hf c hc h), hends] at hx
        simpa using hx.symm
      rw [val_iff] at hy
      rcases hostParse_cases (log := (hostParse env t false).log) (by rw [← hy]) with
        ⟨_, h⟩ | ⟨t', b, h1, _, _, hb, h⟩ | ⟨s, _, _, _, _, h⟩ | ⟨_, _, _, _, _, _, h⟩
      · exact absurd h (hadr _)
      · rw [h1] at hh; exact absurd rfl hh
      · exact absurd h (hadr _)
      · rcases h.2 with ⟨_, n, _, _, h⟩ | ⟨_, h⟩
        · exact ⟨b, n, hxb, h, hf, hends⟩
        · exact absurd h (hadr _)

theorem ends_serialized (n : Nat) : Spec.endsInANumber (Spec.ipv4Serializer n) = true := by
  rw [ends_std, ← ipv4Serializer_eq]
  refine ⟨natDec (n % 256), ?_, .inl ⟨natDec_ne_nil _, natDec_digits _⟩⟩
  unfold Spec.ipv4Parts
  rw [strictlySplit_splitOn, splitOn_ipv4Serialize]
  rw [if_neg]
  · rfl
  · rintro ⟨h, -⟩
    simp only [List.getLast?_cons_cons, List.getLast?_singleton, Option.some.injEq] at h
    exact natDec_ne_nil _ h

theorem serialized_colon (n : Nat) : c!":" ∉ Spec.ipv4Serializer n := by
  rw [← ipv4Serializer_eq, ipv4Serialize_eq]
  have h : ∀ m, c!":" ∉ natDec m := fun m hc => absurd (natDec_digits m _ hc) (by decide)
  simp only [List.mem_append, h, false_or, or_false, List.mem_singleton]
  decide

theorem ends_nil : Spec.endsInANumber [] = false := by decide

/-- the host before the port -/
theorem hostGetter_cut {u : Rec} {x : Host} (hx : u.host = some x) (hc : c!":" ∉ Spec.hostSerializer x) :
    (Spec.hostGetter u).takeWhile (fun c => decide (c ≠ c!":")) = Spec.hostSerializer x := by
  have all : ∀ c ∈ Spec.hostSerializer x, decide (c ≠ c!":") = true := fun c h => decide_eq_true fun e => hc (e ▸ h)
  unfold Spec.hostGetter
  rw [hx]
  cases u.port with
  | none =>
    have := List.takeWhile_append_of_pos (l₂ := []) all
    simpa using this
  | some p =>
    dsimp only
    rw [List.append_assoc, List.takeWhile_append_of_pos all]
    show _ ++ List.takeWhile _ (c!":" :: _) = _
    rw [List.takeWhile_cons_of_neg (by simp)]
    simp

/-- the origin that goes with the outcome of parsing the path of a blob URL -/
def originText : Outcome → Str
  | .failure _ => u!"null"
  | .ok v => if v.scheme = u!"http" ∨ v.scheme = u!"https" then v.scheme ++ u!"://" ++ Spec.hostGetter v else u!"null"

theorem originGetter_iff {hp : Str → Bool → Option Host} {u : Rec} (hb : u.scheme = u!"blob") {x : Outcome}
    (hx : Parses hp (Spec.pathSerializer u.path) none .utf8 x) (t : Str) : Spec.OriginGetter hp u t ↔ t = originText x := by
  unfold Spec.OriginGetter
  simp only [hb, ne_eq, not_true_eq_false, false_and, true_and, false_or]
  cases x with
  | failure v =>
    constructor
    · rintro (⟨_, _, h⟩ | ⟨w, h, _⟩)
      · exact h
      · have := hx.unique h; cases this
    · exact fun h => .inl ⟨v, hx, h⟩
  | ok v =>
    have e : originText (.ok v) = if v.scheme ∈ [u!"http", u!"https", u!"file"] then Spec.plainOrigin v else u!"null" := by
      unfold originText Spec.plainOrigin
      dsimp only
      by_cases h1 : v.scheme = u!"http" ∨ v.scheme = u!"https"
      · rw [if_pos h1, if_pos (by rcases h1 with h1 | h1 <;> simp [h1]), if_pos (by rcases h1 with h1 | h1 <;> simp [h1])]
      · rw [if_neg h1]
        by_cases h2 : v.scheme = u!"file"
        · rw [if_pos (by simp [h2]), h2]; rfl
        · rw [not_or] at h1
          rw [if_neg (by simp [h1.1, h1.2, h2])]
    rw [e]
    constructor
    · rintro (⟨w, h, _⟩ | ⟨w, h, h'⟩)
      · have := hx.unique h; cases this
      · have := hx.unique h
        cases this
        rcases h' with ⟨h1, h2⟩ | ⟨h1, h2⟩
        · rw [if_pos h1, h2]
        · rw [if_neg h1, h2]
    · intro h
      refine .inr ⟨v, hx, ?_⟩
      split at h
      · next h1 => exact .inl ⟨h1, h⟩
      · next h1 => exact .inr ⟨h1, h⟩

theorem originText_null {x : Outcome} : originText x ≠ u!"null" ↔ ∃ v, x = .ok v ∧ (v.scheme = u!"http" ∨ v.scheme = u!"https") := by
  cases x with
  | failure v => simp [originText]
  | ok v =>
    unfold originText
    dsimp only
    split
    · next h =>
      refine ⟨fun _ => ⟨v, rfl, h⟩, fun _ hc => ?_⟩
      rcases h with h | h <;> (rw [h] at hc; cases hc)
    · next h => exact ⟨fun hc => absurd rfl hc, fun ⟨w, e, hw⟩ => by cases e; exact absurd hw h⟩

/-- equal origins have equal hosts -/
theorem originText_host {v w : Rec} (hv : v.scheme = u!"http" ∨ v.scheme = u!"https") (hw : w.scheme = u!"http" ∨ w.scheme = u!"https")
    (h : originText (.ok v) = originText (.ok w)) : Spec.hostGetter v = Spec.hostGetter w := by
  unfold originText at h
  dsimp only at h
  rw [if_pos hv, if_pos hw] at h
  rcases hv with hv | hv <;> rcases hw with hw | hw <;> rw [hv, hw] at h
  · simpa using h
  · simp at h
  · simp at h
  · simpa using h

end Urlstd
