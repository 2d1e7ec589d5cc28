/-
Property C98: the hosts that have no validation error, by rules.
-/
import Verif.Lemmas.SilentHost
import Verif.Props.ErrorFree
import Verif.Props.HostDenote

namespace Urlstd.Props

open Spec (IsStr ErrorFree ErrorFreeHost ErrorFreeName PlainAddress NamedScheme URLUnits V6Text ForbiddenHostCP ForbiddenDomainCP
  DomainDenotes EndsInNumber DelOK)

theorem domainToAscii_ok_log {env : Env} {d a : Str} {log : Log} (h : domainToAscii env d false = ⟨.ok a, log⟩) : log = [] := by
  unfold domainToAscii at h
  cases hn : env.nameToAscii false d with
  | failure => rw [hn] at h; cases h
  | ok dest errors =>
    rw [hn] at h
    dsimp only at h
    generalize (if false = true then checkHyphensErrors else checkHyphensErrors ||| verifyDnsLengthErrors) = allowed at h
    by_cases h1 : maskErrors errors allowed ≠ 0
    · rw [if_pos h1] at h; cases h
    · rw [if_neg h1] at h
      by_cases h2 : dest.isEmpty = true
      · rw [if_pos h2] at h; cases h
      · rw [if_neg h2] at h; cases h; rfl

/-- C98. The hosts that the host parser accepts without a validation error, by rules: an IPv6 address in brackets; behind a special
scheme the empty host, or a text for which the IDNA library has a name without forbidden code points, that is no IPv4 address or the
plain writing of one; behind another scheme the texts of URL units without forbidden code points. -/
theorem C98_host (env : Env) (he : EnvOK env) (hd : DelOK env) (special : Bool) (h : Str) (hs : IsStr h) :
    HostSilent env special h ↔ ErrorFreeHost env special h := by
  unfold ErrorFreeHost
  by_cases hb : h.head? = some c!"["
  · cases h with
    | nil => cases hb
    | cons c t =>
      injection hb with hb
      subst hb
      rw [C98_brackets env he]
      constructor
      · rintro ⟨a, p, rfl, hv⟩
        exact .inl ⟨a, p, rfl, hv⟩
      · rintro (⟨a, p, h, hv⟩ | ⟨h, -⟩)
        · injection h with _ h
          exact ⟨a, p, h, hv⟩
        · exact absurd rfl h
  · have hno : ¬ ∃ a p, h = u!"[" ++ a ++ u!"]" ∧ V6Text a p := by
      rintro ⟨a, p, rfl, -⟩
      exact hb rfl
    rw [or_iff_right hno, and_iff_right hb]
    cases special with
    | false => rw [if_neg (by decide), C98_opaque_host env h hb]
    | true =>
      rw [if_pos rfl]
      cases h with
      | nil => exact ⟨fun _ => .inl rfl, fun _ => ⟨.str [], rfl⟩⟩
      | cons c t =>
        have hc : c ≠ c!"[" := by rintro rfl; exact hb rfl
        have hdd : ∀ y, (domainToAscii env (utf8Decode (stringPercentDecode (c :: t))) false).res = y ↔
            DomainDenotes (env.nameToAscii false) (Spec.utf8Decode (Spec.percentDecode (Spec.utf8 (c :: t)))) y := by
          intro y
          rw [domainDenotes_iff, ← utf8Encode_eq _ hs, ← percentDecode_eq, ← utf8Decode_eq]
          rfl
        unfold HostSilent hostParse
        dsimp only
        rw [if_neg hc, if_neg (by decide)]
        rcases hr : domainToAscii env (utf8Decode (stringPercentDecode (c :: t))) false with ⟨r, log⟩
        rw [hr] at hdd
        cases r with
        | error err =>
          constructor
          · rintro ⟨x, hx⟩; cases hx
          · rintro (h | ⟨a, h, -⟩)
            · cases h
            · cases (hdd _).2 h
        | ok a =>
          cases domainToAscii_ok_log hr
          dsimp only
          have key : (c :: t = [] ∨ ∃ b, DomainDenotes (env.nameToAscii false) (Spec.utf8Decode (Spec.percentDecode (Spec.utf8 (c :: t)))) (.ok b) ∧
              ErrorFreeName env b) ↔ ErrorFreeName env a := by
            constructor
            · rintro (h | ⟨b, h, hn⟩)
              · cases h
              · have := (hdd _).2 h
                injection this with this
                rw [this]; exact hn
            · intro h
              exact .inr ⟨a, (hdd _).1 rfl, h⟩
          rw [key]
          unfold ErrorFreeName
          rw [← endsInNumber_iff hd, ← ipv4Parse_silent hd]
          have hf : a.any isForbiddenDomain = true ↔ ¬ ∀ c ∈ a, ¬ ForbiddenDomainCP c := by
            rw [List.any_eq_true]
            constructor
            · rintro ⟨x, hx, hx'⟩ h
              exact h x hx ((isForbiddenDomain_iff x).1 hx')
            · intro h
              refine Classical.byContradiction fun hn => h fun x hx hx' => hn ⟨x, hx, (isForbiddenDomain_iff x).2 hx'⟩
          by_cases hany : a.any isForbiddenDomain = true
          · rw [if_pos hany]
            constructor
            · rintro ⟨x, hx⟩; cases hx
            · intro h; exact absurd h.1 (hf.1 hany)
          · rw [if_neg hany]
            have hall : ∀ c ∈ a, ¬ ForbiddenDomainCP c := Classical.byContradiction fun hn => hany (hf.2 hn)
            rw [and_iff_right hall]
            by_cases hend : isEndsInANumber env a = true
            · rw [if_pos hend, forall_prop_of_true hend]
              rcases ipv4Parse env a with ⟨r, log⟩
              cases r with
              | error err =>
                constructor
                · rintro ⟨x, hx⟩; cases hx
                · rintro ⟨x, hx⟩; cases hx
              | ok n =>
                constructor
                · rintro ⟨x, hx⟩
                  have := congrArg Res.log hx
                  simp [Res.ok] at this
                  subst this
                  exact ⟨n, rfl⟩
                · rintro ⟨m, hm⟩
                  cases hm
                  exact ⟨_, rfl⟩
            · rw [if_neg hend]
              exact ⟨fun _ h => absurd h hend, fun _ => ⟨_, rfl⟩⟩

/-- C98. The grammar of the texts without a validation error, with the hosts by rules. -/
theorem C98_grammar (env : Env) (he : EnvOK env) (hd : DelOK env) (s : Str) (hs : IsStr s) (base : Option Rec) (e : Encoding) :
    (∃ u, basicParse env s base e = ⟨.ok (), u, []⟩) ↔ ErrorFree (ErrorFreeHost env) (DigitsOK env) base s := by
  rw [C98_exact]
  constructor
  · exact ErrorFree.mono fun sp h hc => (C98_host env he hd sp h fun c hm => hs c (hc c hm)).1
  · exact ErrorFree.mono fun sp h hc => (C98_host env he hd sp h fun c hm => hs c (hc c hm)).2

theorem plainText_recording (env : Env) (s : Str) : Spec.plainText env.recording s = Spec.plainText env s := by
  induction s with
  | nil => rfl
  | cons c s ih => simp only [Spec.plainText, ih]; rfl

/-- whether errors are recorded does not matter for the rules -/
theorem errorFreeHost_recording (env : Env) (special : Bool) (h : Str) :
    ErrorFreeHost env.recording special h ↔ ErrorFreeHost env special h := by
  simp only [ErrorFreeHost, ErrorFreeName, PlainAddress, EndsInNumber, Spec.PartReads, Spec.PyInt, plainText_recording]
  rfl

/-- C98. The second validator with the hosts by rules, for a base of any kind. -/
theorem C98_is_valid_grammar (env : Env) (he : EnvOK env) (hd : DelOK env) (s : Str) (hs : IsStr s) (arg : BaseArg) (e : Encoding) :
    (urlIsValid env s arg e).res = .ok true ↔
      ∃ base scheme, BaseIs env e arg base ∧ ErrorFree (ErrorFreeHost env) (DigitsOK env) base s ∧ NamedScheme base s scheme ∧
        (isValidUrlScheme env scheme).res = .ok true := by
  rw [C98_is_valid]
  have h : ∀ base, ErrorFree (HostSilent env.recording) (DigitsOK env) base s ↔ ErrorFree (ErrorFreeHost env) (DigitsOK env) base s :=
    fun base => (C98_exact env.recording s base e).symm.trans ((C98_grammar env.recording he hd s hs base e).trans
      ⟨ErrorFree.mono fun sp h _ => (errorFreeHost_recording env sp h).1, ErrorFree.mono fun sp h _ => (errorFreeHost_recording env sp h).2⟩)
  simp only [h]

-- numbers with a leading zero, numbers above 255 and a last dot are errors
example : ErrorFreeHost exEnv true u!"1.2.3.4" ∧ ErrorFreeHost exEnv true u!"0.255" ∧ ¬ ErrorFreeHost exEnv true u!"1.2.3.04" ∧
    ¬ ErrorFreeHost exEnv true u!"1.256" ∧ ¬ ErrorFreeHost exEnv true u!"1." ∧ ErrorFreeHost exEnv true u!"EX%61mple.org" ∧
    ErrorFreeHost exEnv false u!"EX%61mple" ∧ ¬ ErrorFreeHost exEnv false u!"a%x" := by
  have g := fun sp h hs => (C98_host exEnv (.inr (by decide)) exEnv_del sp h hs)
  have yes : ∀ sp h, IsStr h → (hostParse exEnv h (!sp)).res.toOption.isSome = true → (hostParse exEnv h (!sp)).log = [] →
      ErrorFreeHost exEnv sp h := by
    intro sp h hs h1 h2
    refine (g sp h hs).1 ?_
    unfold HostSilent
    revert h1 h2
    rcases hostParse exEnv h (!sp) with ⟨r, l⟩
    intro h1 h2
    cases r with
    | error err => cases h1
    | ok x => cases h2; exact ⟨x, rfl⟩
  have no : ∀ sp h, IsStr h → (hostParse exEnv h (!sp)).log ≠ [] → ¬ ErrorFreeHost exEnv sp h := by
    intro sp h hs h1 h2
    obtain ⟨x, hx⟩ := (g sp h hs).2 h2
    rw [hx] at h1
    exact h1 rfl
  exact ⟨yes _ _ (by decide) (by decide +kernel) (by decide +kernel), yes _ _ (by decide) (by decide +kernel) (by decide +kernel),
    no _ _ (by decide) (by decide +kernel), no _ _ (by decide) (by decide +kernel), no _ _ (by decide) (by decide +kernel),
    yes _ _ (by decide) (by decide +kernel) (by decide +kernel), yes _ _ (by decide) (by decide +kernel) (by decide +kernel),
    no _ _ (by decide) (by decide +kernel)⟩
-- underscores go without an error, and so do the digits of other scripts (C88), which the IDNA library may let through
example : ErrorFreeName exEnv u!"1_0.2" ∧ ErrorFreeName exEnvUni ([0x661] ++ u!".2") := by
  have g : ∀ env a, DelOK env → (ipv4Parse env a).res.toOption.isSome = true → (ipv4Parse env a).log = [] → PlainAddress env a := by
    intro env a hd h1 h2
    refine (ipv4Parse_silent hd a).1 ?_
    revert h1 h2
    rcases ipv4Parse env a with ⟨r, l⟩
    intro h1 h2
    cases r with
    | error err => cases h1
    | ok x => cases h2; exact ⟨x, rfl⟩
  exact ⟨⟨by decide, fun _ => g _ _ exEnv_del (by decide +kernel) (by decide +kernel)⟩,
    ⟨by decide, fun _ => g _ _ exEnvUni_del (by decide +kernel) (by decide +kernel)⟩⟩

end Urlstd.Props
