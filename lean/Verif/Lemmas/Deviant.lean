/-
Exactly which hosts the code reads differently from the standard.
-/
import Verif.Lemmas.HostParser
import Verif.Lemmas.PyInt2
import Verif.Props.Numeral
import Verif.Props.IPv6
import Verif.Spec.Deviant

namespace Urlstd

open Spec (OddEnd OddAddress OddIPv6 OddHost StandardEnd Address PartReads PartsRead StrictPart DelOK RadixText)

variable {env : Env}

/-! ### The standard's numerals are strict -/

theorem radixText_ascii {R : Nat} {t : Str} (h : RadixText R t) : ∀ c ∈ t, c < 128 := by
  intro c hc
  have := h c hc
  unfold Spec.radixDigit at this
  dsimp only at this
  split at this
  · omega
  · split at this
    · omega
    · split at this
      · omega
      · cases this

theorem radixValue_text {R : Nat} (hR : R ≤ 16) {t : Str} {v : Nat} (h : Spec.radixValue R 0 t = some v) : RadixText R t := by
  rw [radixText_iff hR]
  by_contra hn
  rw [radixValue_none hR hn] at h
  cases h

theorem ipv4Number_radix (p : Str) (v : Nat) (h : Spec.ipv4Number p = some v) :
    (∀ c ∈ p, c < 128) ∧ RadixText (Spec.partRadix p).1 (Spec.partRadix p).2 := by
  unfold Spec.ipv4Number at h
  split at h
  · cases h
  · next c rest =>
    have er : Spec.partRadix (48 :: c :: rest) = if c = c!"x" ∨ c = c!"X" then (16, rest) else (8, c :: rest) := rfl
    rw [er]
    split at h
    · next hx =>
      rw [if_pos hx]
      have := radixValue_text (by decide) h
      refine ⟨?_, this⟩
      intro d hd
      simp only [List.mem_cons] at hd
      rcases hd with rfl | rfl | hd
      · decide
      · rcases hx with rfl | rfl <;> decide
      · exact radixText_ascii this d hd
    · next hx =>
      rw [if_neg hx]
      have := radixValue_text (by decide) h
      refine ⟨?_, this⟩
      intro d hd
      simp only [List.mem_cons] at hd
      rcases hd with rfl | hd
      · decide
      · exact radixText_ascii this d (by simpa using hd)
  · next h1 h2 =>
    have := radixValue_text (by decide) h
    refine ⟨radixText_ascii this, ?_⟩
    unfold Spec.partRadix
    split
    · exact absurd rfl (h2 _ _)
    · exact this

theorem strict_of_number {p : Str} {v : Nat} (h : Spec.ipv4Number p = some v) : StrictPart p :=
  ⟨(ipv4Number_radix p v h).1, fun _ => (ipv4Number_radix p v h).2⟩

theorem mapM_mem {α β : Type} {f : α → Option β} : ∀ {l : List α} {vs : List β}, l.mapM f = some vs → ∀ p ∈ l, ∃ v, f p = some v := by
  intro l
  induction l with
  | nil => intro vs _ p hp; cases hp
  | cons a l ih =>
    intro vs h p hp
    rw [List.mapM_cons] at h
    cases h1 : f a with
    | none => rw [h1] at h; cases h
    | some b =>
      rw [h1] at h
      cases h2 : l.mapM f with
      | none => rw [h2] at h; cases h
      | some bs =>
        rcases List.mem_cons.1 hp with rfl | hp
        · exact ⟨b, h1⟩
        · exact ih h2 p hp

theorem mapM_none_mem {α β : Type} {f : α → Option β} : ∀ {l : List α}, l.mapM f = none → ∃ p ∈ l, f p = none := by
  intro l
  induction l with
  | nil => intro h; cases h
  | cons a l ih =>
    intro h
    cases h1 : f a with
    | none => exact ⟨a, by simp, h1⟩
    | some b =>
      rw [List.mapM_cons, h1] at h
      cases h2 : l.mapM f with
      | none =>
        obtain ⟨p, hp, hf⟩ := ih h2
        exact ⟨p, by simp [hp], hf⟩
      | some bs => rw [h2] at h; cases h

/-- what the standard accepts, the code accepts -/
theorem ipv4Parse_accepts (he : EnvOK env) {s : Str} {n : Nat} (h : Spec.ipv4Parse s = some n) : (ipv4Parse env s).val = some n := by
  rw [← h]
  unfold Spec.ipv4Parse at h
  dsimp only at h
  split at h
  · cases h
  · split at h
    · cases h
    · next vs hvs =>
      split at h
      · cases h
      · next hany =>
        refine ipv4Parse_agree env he s (fun p hp => ?_) (fun ns hns _ v hv => ?_)
        · obtain ⟨v, hv⟩ := mapM_mem hvs p hp
          exact strict_of_number hv
        · rw [hvs] at hns
          cases hns
          simp only [List.any_eq_true, decide_eq_true_eq, not_exists, not_and, Nat.not_lt] at hany
          exact hany v hv

theorem val_iff {α : Type} (r : Res α) (a : α) : r.val = some a ↔ r.res = .ok a := by
  rcases r with ⟨x, l⟩
  cases x <;> simp [Res.val]

theorem ipv4Parse_odd (he : EnvOK env) (hd : DelOK env) (s : Str) : (ipv4Parse env s).val ≠ Spec.ipv4Parse s ↔ OddAddress env s := by
  constructor
  · intro h
    cases hs : Spec.ipv4Parse s with
    | some n => rw [hs] at h; exact absurd (ipv4Parse_accepts he hs) h
    | none =>
      rw [hs] at h
      cases hv : (ipv4Parse env s).val with
      | none => exact absurd hv h
      | some n =>
        refine ⟨n, ((Props.C88_parse env hd s).1 n).1 ((val_iff _ _).1 hv), ?_⟩
        cases hm : (Spec.ipv4Parts s).mapM Spec.ipv4Number with
        | none => exact .inl (mapM_none_mem hm)
        | some vs =>
          right
          refine ⟨vs, rfl, ?_⟩
          by_contra hc
          have hc : ∀ v ∈ vs.dropLast, v ≤ 255 := by
            intro v hv
            by_contra hv2
            exact hc ⟨v, hv, by omega⟩
          have := ipv4Parse_agree env he s (fun p hp => by
            obtain ⟨v, hv⟩ := mapM_mem hm p hp
            exact strict_of_number hv) (fun ns hns _ => by rw [hm] at hns; cases hns; exact hc)
          rw [hv, hs] at this
          cases this
  · rintro ⟨n, h1, h2⟩ he'
    rw [(val_iff _ _).2 (((Props.C88_parse env hd s).1 n).2 h1)] at he'
    have he' := he'.symm
    unfold Spec.ipv4Parse at he'
    dsimp only at he'
    split at he'
    · cases he'
    · split at he'
      · cases he'
      · next vs hvs =>
        split at he'
        · cases he'
        · next hany =>
          rcases h2 with ⟨p, hp, hn⟩ | ⟨ws, hws, v, hv, h255⟩
          · obtain ⟨v, hv⟩ := mapM_mem hvs p hp
            rw [hn] at hv; cases hv
          · rw [hvs] at hws
            cases hws
            apply hany
            simp only [List.any_eq_true, decide_eq_true_eq]
            exact ⟨v, hv, h255⟩

theorem ends_std (s : Str) : Spec.endsInANumber s = true ↔ ∃ p, (Spec.ipv4Parts s).getLast? = some p ∧ StandardEnd p := by
  unfold Spec.endsInANumber StandardEnd
  cases (Spec.ipv4Parts s).getLast? with
  | none => simp
  | some p => simp

theorem ends_accepts (he : EnvOK env) (hd : DelOK env) {s : Str} (h : Spec.endsInANumber s = true) : isEndsInANumber env s = true := by
  obtain ⟨p, hp, h | h⟩ := (ends_std s).1 h
  · exact (endsInNumber_iff hd s).2 ⟨p, hp, .inl h⟩
  · obtain ⟨v, hv⟩ := Option.isSome_iff_exists.1 h
    rw [← (ends_std s).2 ⟨p, hp, .inr h⟩]
    refine endsInANumber_agree env he s (fun q hq => ?_)
    rw [partsOf_eq, hp] at hq
    cases hq
    exact strict_of_number hv

theorem ends_odd (he : EnvOK env) (hd : DelOK env) (s : Str) : isEndsInANumber env s ≠ Spec.endsInANumber s ↔ OddEnd env s := by
  constructor
  · intro h
    cases hs : Spec.endsInANumber s with
    | true => rw [hs, ends_accepts he hd hs] at h; exact absurd rfl h
    | false =>
      rw [hs] at h
      obtain ⟨p, hp, h1⟩ := (endsInNumber_iff hd s).1 (by simpa using h)
      have hn : ¬ StandardEnd p := by
        intro hc
        rw [(ends_std s).2 ⟨p, hp, hc⟩] at hs
        cases hs
      refine ⟨p, hp, hn, ?_⟩
      rcases h1 with h1 | h1
      · exact absurd (.inl h1) hn
      · exact h1
  · rintro ⟨p, hp, hn, h1⟩ h
    rw [(endsInNumber_iff hd s).2 ⟨p, hp, .inr h1⟩] at h
    obtain ⟨q, hq, hs⟩ := (ends_std s).1 h.symm
    rw [hp] at hq
    cases hq
    exact hn hs

theorem ipv6_odd (he : EnvOK env) (s : Str) : (ipv6Parse env s).val ≠ Spec.ipv6Parse s ↔ OddIPv6 env s := by
  rw [(Props.C15_exact env he s).1]
  unfold OddIPv6 Spec.SevenGroups
  have : (ipv6Parse env s).val ≠ none ↔ ∃ a, (ipv6Parse env s).res = .ok a := by
    rcases ipv6Parse env s with ⟨r, l⟩
    cases r <;> simp [Res.val]
  rw [this]

theorem hostParse_odd (he : EnvOK env) (hd : DelOK env) {s : Str} (hs : Spec.IsScalarStr s) {m : Bool} (hne : s ≠ [] ∨ m = true) :
    (hostParse env s m).val ≠ Spec.hostParser (env.nameToAscii false) s m ↔ OddHost env s m := by
  unfold OddHost Spec.hostParser Spec.hostParserWith
  cases s with
  | nil =>
    rcases hne with h | rfl
    · exact absurd rfl h
    · constructor
      · intro h; exact absurd rfl h
      · rintro (⟨x, h, -⟩ | ⟨h, -⟩) <;> cases h
  | cons c t =>
    unfold hostParse
    dsimp only
    rw [List.head?_cons]
    by_cases hc : c = c!"["
    · subst hc
      rw [if_pos rfl, if_pos rfl]
      rw [getLastD_eq _ _ (by simp), List.getLast?_eq_some_getLast (by simp : c!"[" :: t ≠ [])]
      by_cases hl : (c!"[" :: t).getLast (by simp) = c!"]"
      · rw [hl, if_neg (by simp), if_neg (by simp)]
        have hne : t ≠ [] := by rintro rfl; simp at hl
        have ht : t = t.dropLast ++ [c!"]"] := by
          rw [List.getLast_cons hne] at hl
          conv => lhs; rw [← List.dropLast_concat_getLast hne, hl]
        have e : (∃ x, c!"[" :: t = u!"[" ++ x ++ u!"]" ∧ OddIPv6 env x) ↔ OddIPv6 env t.dropLast := by
          constructor
          · rintro ⟨x, hx, h⟩
            have : t = x ++ u!"]" := by
              rw [List.append_assoc] at hx
              injection hx
            rw [this, List.dropLast_concat]
            exact h
          · intro h
            refine ⟨t.dropLast, ?_, h⟩
            rw [List.append_assoc, ← ht]
            rfl
        rw [e, List.tail_cons, ← ipv6_odd he]
        simp only [ne_eq, not_true_eq_false, false_and, and_false, or_false]
        rw [not_iff_not]
        rcases ipv6Parse env t.dropLast with ⟨r, log⟩
        generalize Spec.ipv6Parse t.dropLast = o
        cases r <;> cases o <;> simp [Res.val, Res.ok, Res.err]
      · rw [if_pos hl, if_pos (by simpa using hl)]
        constructor
        · intro h; exact absurd rfl h
        · rintro (⟨x, hx, -⟩ | ⟨-, h, -⟩)
          · exfalso
            apply hl
            simp only [hx]
            exact List.getLast_concat
          · exact absurd rfl h
    · have hc' : ¬ (some c = some c!"[") := by simpa using hc
      rw [if_neg hc, if_neg hc']
      have e6 : ¬ ∃ x, c :: t = u!"[" ++ x ++ u!"]" ∧ OddIPv6 env x := by
        rintro ⟨x, hx, -⟩
        rw [List.append_assoc] at hx
        injection hx with h1 _
        exact hc h1
      cases m with
      | true =>
        simp only [if_true]
        constructor
        · intro h
          exfalso
          apply h
          unfold parseOpaqueHost Spec.opaqueHost
          by_cases hf : (c :: t).any isForbiddenHost = true
          · rw [if_pos hf, if_pos (by
              rw [List.any_eq_true] at hf
              obtain ⟨x, hx, hf⟩ := hf
              exact ⟨x, hx, (isForbiddenHost_iff x).1 hf⟩)]
            rfl
          · have hf' : ¬ ∃ x ∈ c :: t, Spec.ForbiddenHostCP x := by
              rintro ⟨x, hx, h⟩
              exact hf (List.any_eq_true.2 ⟨x, hx, (isForbiddenHost_iff x).2 h⟩)
            rw [if_neg hf, if_neg hf', ← encode_each agree_c0 hs]
            rfl
        · rintro (h | ⟨h, -⟩)
          · exact absurd h e6
          · cases h
      | false =>
        simp only [Bool.false_eq_true, if_false]
        have hdec : utf8Decode (stringPercentDecode (c :: t)) =
            Spec.utf8Decode (Spec.percentDecode (Spec.utf8 (c :: t))) := by
          unfold stringPercentDecode
          rw [percentDecode_eq, utf8Encode_eq _ hs.isStr, utf8Decode_eq]
        rw [← hdec, ← domainToAscii_std]
        simp only [e6, false_or, true_and, ne_eq, hc', not_false_eq_true]
        generalize domainToAscii env (utf8Decode (stringPercentDecode (c :: t))) false = d
        rcases d with ⟨r, log⟩
        cases r with
        | error e =>
          constructor
          · intro h; exact absurd rfl h
          · rintro ⟨a, ha, -⟩; cases ha
        | ok a =>
          have ea : (⟨.ok a, log⟩ : Res Str).val = some a := rfl
          rw [ea]
          have eq : ∀ P : Str → Prop, (∃ b, some a = some b ∧ P b) ↔ P a := by
            intro P
            constructor
            · rintro ⟨b, hb, h⟩; cases hb; exact h
            · intro h; exact ⟨a, rfl, h⟩
          rw [eq]
          dsimp only
          by_cases hf : a.any isForbiddenDomain = true
          · rw [List.any_eq_true] at hf
            obtain ⟨x, hx, hfx⟩ := hf
            rw [if_pos (List.any_eq_true.2 ⟨x, hx, hfx⟩), if_pos ⟨x, hx, (isForbiddenDomain_iff x).1 hfx⟩]
            constructor
            · intro h; exact absurd rfl h
            · rintro ⟨h, -⟩; exact absurd ((isForbiddenDomain_iff x).1 hfx) (h x hx)
          · have hf' : ¬ ∃ x ∈ a, Spec.ForbiddenDomainCP x := by
              rintro ⟨x, hx, h⟩
              exact hf (List.any_eq_true.2 ⟨x, hx, (isForbiddenDomain_iff x).2 h⟩)
            rw [if_neg hf, if_neg hf']
            have hf2 : ∀ x ∈ a, ¬ Spec.ForbiddenDomainCP x := fun x hx h => hf' ⟨x, hx, h⟩
            rw [and_iff_right hf2, ← ends_odd he hd, ← ipv4Parse_odd he hd]
            cases hn : Spec.endsInANumber a with
            | false =>
              cases hm : isEndsInANumber env a with
              | false => simp [Res.val, Res.ok]
              | true =>
                rcases ipv4Parse env a with ⟨r, log⟩
                cases r <;> simp [Res.val, Res.ok, Res.err]
            | true =>
              rw [ends_accepts he hd hn]
              rcases ipv4Parse env a with ⟨r, log⟩
              generalize Spec.ipv4Parse a = o
              cases r <;> cases o <;> simp [Res.val, Res.ok, Res.err]

end Urlstd
