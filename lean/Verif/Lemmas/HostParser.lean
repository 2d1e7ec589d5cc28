/-
The code's host parser and the standard's; the machine under a change of the host parser.
-/
import Verif.Spec.HostParser
import Verif.Spec.Idna
import Verif.Lemmas.Machine5
import Verif.Lemmas.IPv4b
import Verif.Lemmas.IPv6c

set_option linter.unusedSimpArgs false

namespace Urlstd

open Spec (Ctx Cfg State Next runState Halts Asks asksHost Outcome)

/-! ### The machine under a change of the host parser -/

/-- the context with another host parser -/
def withHost (K : Ctx) (hp : Str → Bool → Option Host) : Ctx := { K with hostParse := hp }

theorem asksHost_withHost (K : Ctx) (hp : Str → Bool → Option Host) (c : Option Nat) (k : Cfg) :
    asksHost (withHost K hp) c k = asksHost K c k := rfl

theorem runState_congr (K : Ctx) (hp : Str → Bool → Option Host) (c : Option Nat) (rem : Str) (k : Cfg)
    (h : asksHost K c k = true → K.hostParse k.buffer (!Spec.isSpecial k.url.scheme) = hp k.buffer (!Spec.isSpecial k.url.scheme)) :
    runState (withHost K hp) c rem k = runState K c rem k := by
  unfold runState
  have e1 : (withHost K hp).base = K.base := rfl
  have e2 : (withHost K hp).enc = K.enc := rfl
  have e3 : (withHost K hp).override = K.override := rfl
  have e4 : (withHost K hp).hostParse = hp := rfl
  rcases hk : k.state with _ | _ | _ | _ | _ | _ | _ | _ | _ | _ | _ | _ | _ | _ | _ | _ | _ | _ | _ | _ | _ <;>
    simp only [e1, e2, e3, e4]
  · refine ite_congr rfl (fun _ => rfl) (fun h1 => ?_)
    refine ite_congr rfl (fun h2 => ?_) (fun h2 => ?_)
    · refine ite_congr rfl (fun _ => rfl) (fun h3 => ?_)
      refine ite_congr rfl (fun _ => rfl) (fun h4 => ?_)
      rw [h]
      unfold asksHost
      rw [hk]
      dsimp only
      rw [if_pos h2]
      simp [h1, h3, h4]
    · refine ite_congr rfl (fun h3 => ?_) (fun _ => rfl)
      refine ite_congr rfl (fun _ => rfl) (fun h4 => ?_)
      refine ite_congr rfl (fun _ => rfl) (fun h5 => ?_)
      rw [h]
      unfold asksHost
      rw [hk]
      dsimp only
      rw [if_neg h2]
      simp only [Bool.not_eq_true] at h1 h4 h5
      rw [h1, h3, h4, h5]
      rfl
  · refine ite_congr rfl (fun _ => rfl) (fun h1 => ?_)
    refine ite_congr rfl (fun h2 => ?_) (fun h2 => ?_)
    · refine ite_congr rfl (fun _ => rfl) (fun h3 => ?_)
      refine ite_congr rfl (fun _ => rfl) (fun h4 => ?_)
      rw [h]
      unfold asksHost
      rw [hk]
      dsimp only
      rw [if_pos h2]
      simp [h1, h3, h4]
    · refine ite_congr rfl (fun h3 => ?_) (fun _ => rfl)
      refine ite_congr rfl (fun _ => rfl) (fun h4 => ?_)
      refine ite_congr rfl (fun _ => rfl) (fun h5 => ?_)
      rw [h]
      unfold asksHost
      rw [hk]
      dsimp only
      rw [if_neg h2]
      simp only [Bool.not_eq_true] at h1 h4 h5
      rw [h1, h3, h4, h5]
      rfl
  · refine ite_congr rfl (fun h1 => ?_) (fun _ => rfl)
    refine ite_congr rfl (fun _ => rfl) (fun h2 => ?_)
    refine ite_congr rfl (fun _ => rfl) (fun h3 => ?_)
    rw [h]
    unfold asksHost
    rw [hk]
    dsimp only
    simp only [Bool.not_eq_true] at h2
    rw [h2]
    simpa [h3, or_assoc] using h1

theorem Halts_congr {K : Ctx} {hp : Str → Bool → Option Host} {input : Str} {k : Cfg} {o : Outcome}
    (h : ∀ t m, Asks K input k t m → K.hostParse t m = hp t m) (hh : Halts K input k o) :
    Halts (withHost K hp) input k o := by
  induction hh with
  | failure hr => exact .failure (by rw [runState_congr _ _ _ _ _ (fun ha => h _ _ (.now ha))]; exact hr)
  | ret hr => exact .ret (by rw [runState_congr _ _ _ _ _ (fun ha => h _ _ (.now ha))]; exact hr)
  | eof hr he => exact .eof (by rw [runState_congr _ _ _ _ _ (fun ha => h _ _ (.now ha))]; exact hr) he
  | next hr he hn ih =>
    exact .next (by rw [runState_congr _ _ _ _ _ (fun ha => h _ _ (.now ha))]; exact hr) he
      (ih (fun t m ha => h t m (.later hr he ha)))

theorem Halts_congr' {K : Ctx} {hp : Str → Bool → Option Host} {input : Str} {k : Cfg} {o : Outcome}
    (h : ∀ t m, Asks K input k t m → K.hostParse t m = hp t m) (hh : Halts (withHost K hp) input k o) :
    Halts K input k o := by
  induction hh with
  | failure hr => rw [runState_congr _ _ _ _ _ (fun ha => h _ _ (.now ha))] at hr; exact .failure hr
  | ret hr => rw [runState_congr _ _ _ _ _ (fun ha => h _ _ (.now ha))] at hr; exact .ret hr
  | eof hr he => rw [runState_congr _ _ _ _ _ (fun ha => h _ _ (.now ha))] at hr; exact .eof hr he
  | next hr he hn ih =>
    rw [runState_congr _ _ _ _ _ (fun ha => h _ _ (.now ha))] at hr
    exact .next hr he (ih (fun t m ha => h t m (.later hr he ha)))

/-- the outcome does not change if the host parsers agree on what they are called on -/
theorem Halts_iff {K : Ctx} {hp : Str → Bool → Option Host} {input : Str} {k : Cfg} {o : Outcome}
    (h : ∀ t m, Asks K input k t m → K.hostParse t m = hp t m) :
    Halts (withHost K hp) input k o ↔ Halts K input k o := ⟨Halts_congr' h, Halts_congr h⟩

/-! ### What the host parser is called on -/

/-- the states in which the buffer is a piece of the input -/
def hostState : State → Bool
  | .authority | .host | .hostname | .fileHost => true
  | _ => false

/-- the states in which the buffer is empty -/
def emptyState : State → Bool
  | .scheme | .port | .path | .query => false
  | s => !hostState s

/-- the buffer is empty, or consists of code points of the input, or does not matter -/
def BufferOK (input : Str) (k : Cfg) : Prop :=
  (hostState k.state = true → ∀ c ∈ k.buffer, c ∈ input) ∧ (emptyState k.state = true → k.buffer = [])

theorem codePoint_mem {input : Str} {p : Int} {c : Nat} (h : Spec.codePoint input p = some c) : c ∈ input := by
  unfold Spec.codePoint at h
  split at h
  · cases h
  · exact List.mem_of_getElem? h

theorem bufferOK_step {K : Ctx} {input : Str} {k k' : Cfg} (h : BufferOK input k)
    (hr : runState K (Spec.codePoint input k.pointer) (Spec.remaining input k.pointer) k = .go k') :
    BufferOK input { k' with pointer := k'.pointer + 1 } := by
  have hc : ∀ c ∈ (Spec.codePoint input k.pointer).toList, c ∈ input := by
    intro c hc
    rw [Option.mem_toList] at hc
    exact codePoint_mem hc
  generalize Spec.codePoint input k.pointer = c at hr hc
  generalize Spec.remaining input k.pointer = rem at hr
  obtain ⟨h1, h2⟩ := h
  unfold runState at hr
  rcases hk : k.state with _ | _ | _ | _ | _ | _ | _ | _ | _ | _ | _ | _ | _ | _ | _ | _ | _ | _ | _ | _ | _ <;>
    simp only [hk, hostState, emptyState, Option.isSome_none, Bool.not_false, Bool.false_and, Bool.true_and,
      if_true, Bool.false_eq_true, if_false, forall_const, false_implies] at hr h1 h2
  all_goals
    (try unfold runState.portDone at hr)
    (repeat' split at hr)
    all_goals
      first
        | (cases hr; done)
        | (cases hr
           refine ⟨fun hs => ?_, fun hs => ?_⟩ <;>
           first
            | (simp only [hk, hostState, emptyState] at hs; done)
            | (simp [hostState, emptyState] at hs; done)
            | (simp [h2]; done)
            | (simp; done)
            | assumption
            | (intro x hx; simp only [List.mem_append] at hx
               rcases hx with hx | hx
               · exact h1 x hx
               · exact hc x hx))

theorem asks_mem {K : Ctx} {input : Str} {k : Cfg} {t : Str} {m : Bool} (ha : Asks K input k t m) (h : BufferOK input k) : (∀ c ∈ t, c ∈ input) ∧ (t ≠ [] ∨ m = true) := by
  induction ha with
  | @now k ha =>
    unfold asksHost at ha
    rcases hk : k.state with _ | _ | _ | _ | _ | _ | _ | _ | _ | _ | _ | _ | _ | _ | _ | _ | _ | _ | _ | _ | _ <;>
      rw [hk] at ha <;> dsimp only at ha
    case host | hostname =>
      refine ⟨h.1 (by rw [hk]; rfl), ?_⟩
      simp only [Bool.and_eq_true] at ha
      obtain ⟨-, ha⟩ := ha
      split at ha
      · simp at ha; exact .inl ha.1
      · simp at ha
        by_cases hb : k.buffer = []
        · right
          rcases ha.1.2 with hs | hs
          · rw [hs]; rfl
          · exact absurd hb hs
        · exact .inl hb
    case fileHost =>
      refine ⟨h.1 (by rw [hk]; rfl), ?_⟩
      simp only [Bool.and_eq_true] at ha
      left; simpa using ha.2
    all_goals cases ha
  | later hr he hn ih => exact ih (bufferOK_step h hr)

/-! ### The host parsers -/

theorem nat_xor_eq_zero {a b : Nat} : a ^^^ b = 0 ↔ a = b := by
  constructor
  · intro h
    apply Nat.eq_of_testBit_eq
    intro i
    have := congrArg (fun x => Nat.testBit x i) h
    simpa [Nat.testBit_xor] using this
  · rintro rfl; exact Nat.xor_self _

theorem maskErrors_tolerated (errors : Nat) :
    maskErrors errors (checkHyphensErrors ||| verifyDnsLengthErrors) = 0 ↔ Spec.noOtherError errors := by
  have e : checkHyphensErrors ||| verifyDnsLengthErrors = 63 := rfl
  unfold maskErrors Spec.noOtherError
  rw [e, show (63 : Nat) = 2 ^ 6 - 1 from rfl, Nat.and_two_pow_sub_one_eq_mod, nat_xor_eq_zero]
  constructor
  · intro h i _ hi
    have hlt : errors < 2 ^ 6 := by rw [h]; exact Nat.mod_lt _ (by decide)
    have : i < 6 := by
      by_contra hc
      have h1 := Nat.ge_two_pow_of_testBit hi
      have h2 : 2 ^ 6 ≤ 2 ^ i := Nat.pow_le_pow_right (by omega) (by omega)
      omega
    unfold Spec.toleratedBits
    simp only [List.mem_cons, List.not_mem_nil, or_false]
    omega
  · intro h
    apply Nat.eq_of_testBit_eq
    intro i
    rw [Nat.testBit_mod_two_pow]
    by_cases hi : errors.testBit i = true
    · have hle : i ≤ errors := by
        have h1 := Nat.ge_two_pow_of_testBit hi
        have h2 : i < 2 ^ i := Nat.lt_two_pow_self
        omega
      have := h i hle hi
      unfold Spec.toleratedBits at this
      simp only [List.mem_cons, List.not_mem_nil, or_false] at this
      rw [hi]
      simp
      omega
    · simp only [Bool.not_eq_true] at hi
      rw [hi]; simp

theorem domainToAscii_std (env : Env) (d : Str) :
    (domainToAscii env d false).val = Spec.domainToASCII (env.nameToAscii false) d := by
  unfold domainToAscii Spec.domainToASCII
  cases env.nameToAscii false d with
  | failure => rfl
  | ok dest errors =>
    simp only [Bool.false_eq_true, if_false]
    by_cases h1 : maskErrors errors (checkHyphensErrors ||| verifyDnsLengthErrors) = 0
    · rw [if_neg (by simpa using h1)]
      by_cases h2 : dest = []
      · subst h2
        rw [if_pos (by rfl), if_neg (by simp)]; rfl
      · rw [if_neg (by simpa using h2), if_pos ⟨(maskErrors_tolerated errors).1 h1, h2⟩]; rfl
    · rw [if_pos h1, if_neg (fun h => h1 ((maskErrors_tolerated errors).2 h.1))]; rfl

theorem hostOf_eq (env : Env) (s : Str) (m : Bool) : hostOf env s m = (hostParse env s m).val := by
  unfold hostOf Res.val
  cases (hostParse env s m).res <;> rfl

theorem C15_core {env : Env} (he : EnvOK env) {s : Str} (h : Spec.Regular6 s) :
    (ipv6Parse env s).val = Spec.ipv6Parse s := by
  obtain ⟨h1, h2, h3⟩ := h
  apply ipv6Parse_agree env he s h1 h2
  intro ⟨h4, h5⟩
  rw [Nat.zero_add] at h4
  rcases h5 with h5 | ⟨h5, _⟩
  · exact h3 ⟨h4, h5⟩
  · cases h5

theorem hostParse_std {env : Env} (he : EnvOK env) {s : Str} (hs : Spec.IsScalarStr s) {m : Bool} (hne : s ≠ [] ∨ m = true)
    (h : Spec.RegularHost (Spec.domainToASCII (env.nameToAscii false)) s m) :
    (hostParse env s m).val = Spec.hostParser (env.nameToAscii false) s m := by
  obtain ⟨h6, h4⟩ := h
  unfold Spec.hostParser Spec.hostParserWith
  cases s with
  | nil =>
    rcases hne with h | rfl
    · exact absurd rfl h
    · rfl
  | cons c t =>
    unfold hostParse
    dsimp only
    rw [List.head?_cons]
    by_cases hc : c = c!"["
    · subst hc
      rw [if_pos rfl, if_pos rfl]
      rw [getLastD_eq _ _ (by simp), List.getLast?_eq_some_getLast (by simp : c!"[" :: t ≠ [])]
      by_cases hl : (c!"[" :: t).getLast (by simp) = c!"]"
      · rw [hl, if_neg (by simp), if_neg (by simp)]
        have hne : t ≠ [] := by rintro rfl; simp at hl
        have ht : t = t.dropLast ++ [c!"]"] := by
          rw [List.getLast_cons hne] at hl
          conv => lhs; rw [← List.dropLast_concat_getLast hne, hl]
        have hreg := h6 t.dropLast (by rw [List.append_assoc, ← ht]; rfl)
        rw [List.tail_cons, ← C15_core he hreg]
        rcases ipv6Parse env t.dropLast with ⟨r, log⟩
        cases r <;> rfl
      · rw [if_pos hl, if_pos (by simpa using hl)]; rfl
    · have hc' : ¬ (some c = some c!"[") := by simpa using hc
      rw [if_neg hc, if_neg hc']
      cases m with
      | true =>
        simp only [if_true]
        unfold parseOpaqueHost Spec.opaqueHost
        by_cases hf : (c :: t).any isForbiddenHost = true
        · rw [if_pos hf, if_pos (by
            rw [List.any_eq_true] at hf
            obtain ⟨x, hx, hf⟩ := hf
            exact ⟨x, hx, (isForbiddenHost_iff x).1 hf⟩)]
          rfl
        · have hf' : ¬ ∃ x ∈ c :: t, Spec.ForbiddenHostCP x := by
            rintro ⟨x, hx, h⟩
            exact hf (List.any_eq_true.2 ⟨x, hx, (isForbiddenHost_iff x).2 h⟩)
          rw [if_neg hf, if_neg hf', ← encode_each agree_c0 hs]
          rfl
      | false =>
        simp only [Bool.false_eq_true, if_false]
        have hdec : utf8Decode (stringPercentDecode (c :: t)) =
            Spec.utf8Decode (Spec.percentDecode (Spec.utf8 (c :: t))) := by
          unfold stringPercentDecode
          rw [percentDecode_eq, utf8Encode_eq _ hs.isStr, utf8Decode_eq]
        have h4 := h4 rfl (by simpa using hc)
        rw [← hdec] at h4 ⊢
        rw [← domainToAscii_std] at h4 ⊢
        generalize domainToAscii env (utf8Decode (stringPercentDecode (c :: t))) false = d at h4 ⊢
        rcases d with ⟨r, log⟩
        cases r with
        | error e => rfl
        | ok a =>
          have h4 := h4 a rfl
          show _ = match (some a : Option Str) with
            | none => none
            | some ascii => _
          dsimp only
          by_cases hf : a.any isForbiddenDomain = true
          · rw [if_pos hf, if_pos (by
              rw [List.any_eq_true] at hf
              obtain ⟨x, hx, hf⟩ := hf
              exact ⟨x, hx, (isForbiddenDomain_iff x).1 hf⟩)]
            rfl
          · have hf' : ¬ ∃ x ∈ a, Spec.ForbiddenDomainCP x := by
              rintro ⟨x, hx, h⟩
              exact hf (List.any_eq_true.2 ⟨x, hx, (isForbiddenDomain_iff x).2 h⟩)
            rw [if_neg hf, if_neg hf']
            rw [endsInANumber_agree env he a (by rw [partsOf_eq]; exact h4.1)]
            cases hn : Spec.endsInANumber a with
            | false => rfl
            | true =>
              obtain ⟨hp, hbug⟩ := h4.2 hn
              simp only [if_true]
              rw [← ipv4Parse_agree env he a hp hbug]
              rcases ipv4Parse env a with ⟨r, log⟩
              cases r <;> rfl

end Urlstd
