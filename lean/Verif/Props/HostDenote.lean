/-
Property C97: what a host denotes, and which exception it raises.
-/
import Verif.Props.IPv6Text
import Verif.Props.Raises
import Verif.Spec.HostDenote

namespace Urlstd.Props

open Spec (IsStr V6Text V6Raises V6Denotes DomainDenotes V4Raises NameDenotes HostDenotes EndsInNumber Address DelOK ForbiddenDomainCP
  ForbiddenHostCP)

theorem v6Raises_iff {env : Env} (he : EnvOK env) {t : Str} : V6Raises env t ↔ Spec.IPv6Raises env t := by
  unfold V6Raises Spec.IPv6Raises
  simp only [C96_grammar env he]

/-- C97. What `IPv6Address.parse` makes of a text. -/
theorem C97_ipv6 (env : Env) (he : EnvOK env) (t : Str) (x : Except Err (List Nat)) :
    (ipv6Parse env t).res = x ↔ V6Denotes env t x := by
  have hr := C14_exact env t
  rw [← v6Raises_iff he] at hr
  have hp := ipv6Parse_post env t
  constructor
  · rintro rfl
    rcases h : (ipv6Parse env t).res with e | a
    · rw [h] at hp hr
      rcases hp with rfl | ⟨rfl, -⟩
      · refine .refused (fun a ha => ?_) fun h => by cases hr.2 h
        rw [(C96_grammar env he t a).2 ha] at h
        cases h
      · exact .raises (hr.1 rfl)
    · exact .address a ((C96_grammar env he t a).1 h)
  · intro h
    cases h with
    | address a h => exact (C96_grammar env he t a).2 h
    | raises h => exact hr.2 h
    | refused h hn =>
      rcases h2 : (ipv6Parse env t).res with e | a
      · rw [h2] at hp hr
        rcases hp with rfl | ⟨rfl, -⟩
        · rfl
        · exact absurd (hr.1 rfl) hn
      · exact absurd ((C96_grammar env he t a).1 h2) (h a)

theorem domainDenotes_iff {env : Env} {d : Str} {x : Except Err Str} :
    (domainToAscii env d false).res = x ↔ DomainDenotes (env.nameToAscii false) d x := by
  unfold domainToAscii
  cases h : env.nameToAscii false d with
  | failure =>
    constructor
    · rintro rfl; exact .failure h
    · intro hx
      cases hx with
      | failure _ => rfl
      | errors a b h2 _ => rw [h] at h2; cases h2
      | name a b h2 _ _ => rw [h] at h2; cases h2
  | ok dest errors =>
    simp only [Bool.false_eq_true, if_false]
    have hm := maskErrors_tolerated errors
    by_cases h1 : maskErrors errors (checkHyphensErrors ||| verifyDnsLengthErrors) = 0
    · rw [if_neg (by simpa using h1)]
      by_cases h2 : dest = []
      · rw [if_pos (by simp [h2])]
        constructor
        · rintro rfl; exact .errors dest errors h (.inr h2)
        · intro hx
          cases hx with
          | failure h3 => rw [h] at h3; cases h3
          | errors a b h3 _ => rfl
          | name a b h3 _ hne =>
            rw [h] at h3
            injection h3 with h3 _
            exact absurd (h3.symm.trans h2) hne
      · rw [if_neg (by simpa using h2)]
        constructor
        · rintro rfl; exact .name dest errors h (hm.1 h1) h2
        · intro hx
          cases hx with
          | failure h3 => rw [h] at h3; cases h3
          | errors a b h3 hb =>
            rw [h] at h3
            injection h3 with h3 h4
            subst h3 h4
            exact absurd hb (not_or.2 ⟨fun hn => hn (hm.1 h1), h2⟩)
          | name a b h3 _ hne => rw [h] at h3; injection h3 with h3 _; rw [h3]; rfl
    · rw [if_pos h1]
      constructor
      · rintro rfl; exact .errors dest errors h (.inl fun hn => h1 (hm.2 hn))
      · intro hx
        cases hx with
        | failure h3 => rw [h] at h3; cases h3
        | errors a b h3 _ => rfl
        | name a b h3 hb hne =>
          rw [h] at h3
          injection h3 with h3 h4
          subst h4
          exact absurd (hm.2 hb) h1

/-- the end of the host parser, for a domain -/
theorem nameDenotes_iff {env : Env} (hd : DelOK env) {a : Str} {log : Log} {x : Except Err Host} :
    (if a.any isForbiddenDomain then Res.err .hostParse (.ev .domainInvalidCodePoint :: log)
        else if isEndsInANumber env a then
          match ipv4Parse env a with
          | ⟨.ok n, log'⟩ => .ok (.ipv4 n) (log' ++ log)
          | ⟨.error e, log'⟩ => .err e (log' ++ log)
        else .ok (.str a) log : Res Host).res = x ↔ NameDenotes env a x := by
  obtain ⟨h1, h2, h3⟩ := C88_parse env hd a
  have h4 := C88_ends env hd a
  by_cases hf : a.any isForbiddenDomain = true
  · rw [if_pos hf]
    have hex : ∃ c ∈ a, ForbiddenDomainCP c := by
      obtain ⟨c, hc, hf⟩ := List.any_eq_true.1 hf
      exact ⟨c, hc, (isForbiddenDomain_iff c).1 hf⟩
    obtain ⟨c, hc, hcf⟩ := hex
    constructor
    · rintro rfl; exact .forbidden c hc hcf
    · intro hx
      cases hx with
      | forbidden _ _ _ => rfl
      | name h _ => exact absurd hcf (h c hc)
      | address n h _ _ => exact absurd hcf (h c hc)
      | raises h _ _ => exact absurd hcf (h c hc)
      | refused h _ _ _ => exact absurd hcf (h c hc)
  · rw [if_neg hf]
    have hall : ∀ c ∈ a, ¬ ForbiddenDomainCP c := fun c hc hc2 =>
      hf (List.any_eq_true.2 ⟨c, hc, (isForbiddenDomain_iff c).2 hc2⟩)
    by_cases hn : isEndsInANumber env a = true
    · rw [if_pos hn]
      have hn' := h4.1 hn
      rcases hp : ipv4Parse env a with ⟨r, log'⟩
      rw [hp] at h1 h2 h3
      have hnot : ∀ n, r = .ok n → ¬ V4Raises env a := by
        rintro n rfl hv; cases h2.2 hv
      have hnot2 : ∀ e, r = .error e → ∀ n, ¬ Address env a n := by
        rintro e rfl n ha; cases (h1 n).2 ha
      cases r with
      | ok n =>
        constructor
        · rintro rfl; exact .address n hall hn' ((h1 n).1 rfl)
        · intro hx
          cases hx with
          | forbidden c hc hcf => exact absurd hcf (hall c hc)
          | name _ h => exact absurd hn' h
          | address m _ _ ha =>
            have := (h1 m).2 ha
            injection this with this
            rw [this]; rfl
          | raises _ _ h => exact absurd h (hnot n rfl)
          | refused _ _ h _ => exact absurd ((h1 n).1 rfl) (h n)
      | error e =>
        constructor
        · rintro rfl
          show NameDenotes env a (.error e)
          rcases h3 e rfl with rfl | rfl
          · exact .raises hall hn' (h2.1 rfl)
          · exact .refused hall hn' (hnot2 _ rfl) fun h => by cases h2.2 h
        · intro hx
          show (.error e : Except Err Host) = x
          cases hx with
          | forbidden c hc hcf => exact absurd hcf (hall c hc)
          | name _ h => exact absurd hn' h
          | address m _ _ ha => exact absurd ha (hnot2 e rfl m)
          | raises _ _ h => have := h2.2 h; injection this with this; rw [this]
          | refused _ _ h hr =>
            rcases h3 e rfl with rfl | rfl
            · exact absurd (h2.1 rfl) hr
            · rfl
    · rw [if_neg hn]
      have hn' : ¬ EndsInNumber env a := fun h => hn (h4.2 h)
      constructor
      · rintro rfl; exact .name hall hn'
      · intro hx
        cases hx with
        | forbidden c hc hcf => exact absurd hcf (hall c hc)
        | name _ h => rfl
        | address m _ h _ => exact absurd h hn'
        | raises _ h _ => exact absurd h hn'
        | refused _ h _ _ => exact absurd h hn'

/-- C97. The host parser gives what the rules say, be it a host or an exception. -/
theorem C97_host (env : Env) (he : EnvOK env) (hd : DelOK env) (special : Bool) (t : Str) (ht : IsStr t) (x : Except Err Host) :
    (hostParse env t (!special)).res = x ↔ HostDenotes env special t x := by
  cases t with
  | nil =>
    constructor
    · rintro rfl; exact .empty
    · intro h
      generalize hq : ([] : Str) = q at h
      cases h with
      | empty => rfl
      | unclosed t _ => cases hq
      | brackets t a _ => cases hq
      | badBrackets t e _ => cases hq
      | plain _ _ hne _ _ => exact absurd hq.symm hne
      | forbidden _ c _ _ hc _ => rw [← hq] at hc; cases hc
      | noDomain _ e _ hne _ _ => exact absurd hq.symm hne
      | domain _ a x _ hne _ _ _ => exact absurd hq.symm hne
  | cons c t =>
    by_cases hc : c = 91
    · subst hc
      unfold hostParse
      dsimp only
      rw [if_pos rfl]
      by_cases hl : (91 :: t).getLastD 0 = 93
      · rw [if_neg (by simpa using hl)]
        obtain ⟨u, rfl⟩ : ∃ u, t = u ++ [93] := by
          cases ht : t.getLast? with
          | none =>
            rw [List.getLast?_eq_none_iff] at ht
            subst ht
            cases hl
          | some d =>
            obtain ⟨u, rfl⟩ := List.getLast?_eq_some_iff.1 ht
            have : d = 93 := by
              rw [← List.cons_append, List.getLastD_concat] at hl; exact hl
            exact ⟨u, by rw [this]⟩
        rw [List.dropLast_concat]
        have h6 := C97_ipv6 env he u
        have hbr : ∀ v, 91 :: (u ++ [93]) = u!"[" ++ v ++ u!"]" → u = v := by
          intro v h; simpa using h
        have hhead : (91 :: (u ++ [93])).head? = some 91 := rfl
        rcases hr : ipv6Parse env u with ⟨r, log⟩
        rw [hr] at h6
        cases r with
        | error e =>
          show .error e = x ↔ _
          constructor
          · rintro rfl; exact .badBrackets u e ((h6 _).1 rfl)
          · intro h
            generalize hq : 91 :: (u ++ [93]) = q at h hhead
            cases h with
            | empty => cases hq
            | unclosed t h => exact absurd hq.symm (h (91 :: u))
            | brackets v a h => rw [← hbr v hq] at h; cases (h6 _).2 h
            | badBrackets v e' h => rw [← hbr v hq] at h; exact congrArg _ (by have := (h6 _).2 h; injection this)
            | plain _ _ hne h _ => exact absurd hhead h
            | forbidden _ c _ h hc _ => exact absurd hhead h
            | noDomain _ e _ hne h _ => exact absurd hhead h
            | domain _ a x _ hne h _ _ => exact absurd hhead h
        | ok a =>
          show .ok (.ipv6 a) = x ↔ _
          constructor
          · rintro rfl; exact .brackets u a ((h6 _).1 rfl)
          · intro h
            generalize hq : 91 :: (u ++ [93]) = q at h hhead
            cases h with
            | empty => cases hq
            | unclosed t h => exact absurd hq.symm (h (91 :: u))
            | brackets v b h => rw [← hbr v hq] at h; have := (h6 _).2 h; injection this with this; rw [this]
            | badBrackets v e' h => rw [← hbr v hq] at h; cases (h6 _).2 h
            | plain _ _ hne h _ => exact absurd hhead h
            | forbidden _ c _ h hc _ => exact absurd hhead h
            | noDomain _ e _ hne h _ => exact absurd hhead h
            | domain _ a x _ hne h _ _ => exact absurd hhead h
      · rw [if_pos hl]
        have hno : ∀ v, 91 :: t ≠ v ++ [93] := by
          intro v h
          apply hl
          rw [h, List.getLastD_concat]
        constructor
        · rintro rfl; exact .unclosed t hno
        · intro h
          show .error _ = x
          generalize hq : 91 :: t = q at h hno
          have hhead : q.head? = some 91 := by rw [← hq]; rfl
          cases h with
          | empty => cases hq
          | unclosed t h => rfl
          | brackets v b h => exact absurd rfl (hno _)
          | badBrackets v e' h => exact absurd rfl (hno _)
          | plain _ _ hne h _ => exact absurd hhead h
          | forbidden _ c _ h hc _ => exact absurd hhead h
          | noDomain _ e _ hne h _ => exact absurd hhead h
          | domain _ a x _ hne h _ _ => exact absurd hhead h
    · unfold hostParse
      dsimp only
      rw [if_neg hc]
      have hhead : (c :: t).head? ≠ some 91 := by simpa using hc
      generalize hq : c :: t = q at *
      have hne : q ≠ [] := by rw [← hq]; simp
      cases special with
      | false =>
        rw [if_pos (by decide)]
        unfold parseOpaqueHost
        by_cases hf : q.any isForbiddenHost = true
        · rw [if_pos hf]
          obtain ⟨b, hb, hbf⟩ := List.any_eq_true.1 hf
          have hbf := (isForbiddenHost_iff b).1 hbf
          constructor
          · rintro rfl; exact .forbidden q b rfl hhead hb hbf
          · intro h
            cases h with
            | empty => exact absurd rfl hne
            | unclosed t h => exact absurd rfl hhead
            | brackets v b h => exact absurd rfl hhead
            | badBrackets v e' h => exact absurd rfl hhead
            | plain _ _ hne h hall => exact absurd hbf (hall b hb)
            | forbidden _ c _ h hc _ => rfl
            | noDomain _ e h2 hne h _ => cases h2
            | domain _ a x h2 hne h _ _ => cases h2
        · rw [if_neg hf]
          have hall : ∀ b ∈ q, ¬ ForbiddenHostCP b := fun b hb hb2 =>
            hf (List.any_eq_true.2 ⟨b, hb, (isForbiddenHost_iff b).2 hb2⟩)
          have henc : utf8PercentEncode q safeC0 = Spec.percentEncode (fun b => !Spec.c0Set b) false (Spec.utf8 q) :=
            utf8PercentEncode_spec ht (by decide +kernel)
          show .ok (.str (utf8PercentEncode q safeC0)) = x ↔ _
          rw [henc]
          constructor
          · rintro rfl; exact .plain q rfl hne hhead hall
          · intro h
            cases h with
            | empty => exact absurd rfl hne
            | unclosed t h => exact absurd rfl hhead
            | brackets v b h => exact absurd rfl hhead
            | badBrackets v e' h => exact absurd rfl hhead
            | plain _ _ hne h hall => rfl
            | forbidden _ c _ h hc hcf => exact absurd hcf (hall c hc)
            | noDomain _ e h2 hne h _ => cases h2
            | domain _ a x h2 hne h _ _ => cases h2
      | true =>
        rw [if_neg (by decide)]
        have hdd : ∀ y, (domainToAscii env (utf8Decode (stringPercentDecode q)) false).res = y ↔
            DomainDenotes (env.nameToAscii false) (Spec.utf8Decode (Spec.percentDecode (Spec.utf8 q))) y := by
          intro y
          rw [domainDenotes_iff]
          rw [← utf8Encode_eq q ht, ← percentDecode_eq, ← utf8Decode_eq]
          rfl
        rcases hr : domainToAscii env (utf8Decode (stringPercentDecode q)) false with ⟨r, log⟩
        rw [hr] at hdd
        cases r with
        | error e =>
          show .error e = x ↔ _
          constructor
          · rintro rfl; exact .noDomain q e rfl hne hhead ((hdd _).1 rfl)
          · intro h
            cases h with
            | empty => exact absurd rfl hne
            | unclosed t h => exact absurd rfl hhead
            | brackets v b h => exact absurd rfl hhead
            | badBrackets v e' h => exact absurd rfl hhead
            | plain _ h2 _ h hall => cases h2
            | forbidden _ c h2 h hc hcf => cases h2
            | noDomain _ e h2 hne h hd => have := (hdd _).2 hd; injection this with this; rw [this]
            | domain _ a x h2 hne h hd _ => cases (hdd _).2 hd
        | ok a =>
          dsimp only
          refine (nameDenotes_iff (log := log) hd).trans ?_
          constructor
          · intro h; exact .domain q a x rfl hne hhead ((hdd _).1 rfl) h
          · intro h
            cases h with
            | empty => exact absurd rfl hne
            | unclosed t h => exact absurd rfl hhead
            | brackets v b h => exact absurd rfl hhead
            | badBrackets v e' h => exact absurd rfl hhead
            | plain _ h2 _ h hall => cases h2
            | forbidden _ c h2 h hc hcf => cases h2
            | noDomain _ e h2 hne h hd => cases (hdd _).2 hd
            | domain _ b x h2 hne h hd hx => have := (hdd _).2 hd; injection this with this; rw [this]; exact hx

/-- C97. By the rules a text denotes one thing. -/
theorem C97_unique (env : Env) (he : EnvOK env) (hd : DelOK env) (special : Bool) (t : Str) (ht : IsStr t) :
    ∃ x, HostDenotes env special t x ∧ ∀ y, HostDenotes env special t y → y = x :=
  ⟨_, (C97_host env he hd special t ht _).1 rfl, fun y hy => ((C97_host env he hd special t ht y).2 hy).symm⟩

-- one host for each exception
example : HostDenotes exEnv true u!"[1" (.error .ipv6Parse) ∧ HostDenotes exEnv true u!"[1.2.3.4]" (.error .ipv6Parse) ∧
    HostDenotes exEnv false u!"a^b" (.error .hostParse) ∧ HostDenotes exEnv true u!"a%5Eb" (.error .hostParse) ∧
    HostDenotes exEnv true u!"1.2.3.4.5" (.error .ipv4Parse) ∧ HostDenotes exEnv true [0xE4] (.error .idna) := by
  have g := fun sp t ht x => (C97_host exEnv (.inr (by decide)) exEnv_del sp t ht x).1
  exact ⟨g _ _ (by decide) _ (by decide +kernel), g _ _ (by decide) _ (by decide +kernel), g _ _ (by decide) _ (by decide +kernel),
    g _ _ (by decide) _ (by decide +kernel), g _ _ (by decide) _ (by decide +kernel), g _ _ (by decide) _ (by decide +kernel)⟩

-- and hosts that are accepted
example : HostDenotes exEnv true u!"EX%61mple.org" (.ok (.str u!"example.org")) ∧ HostDenotes exEnv true u!"0x7f.1" (.ok (.ipv4 0x7f000001)) ∧
    HostDenotes exEnv false u!"EX%61mple" (.ok (.str u!"EX%61mple")) ∧ HostDenotes exEnv false u!"[::1]" (.ok (.ipv6 [0, 0, 0, 0, 0, 0, 0, 1])) := by
  have g := fun sp t ht x => (C97_host exEnv (.inr (by decide)) exEnv_del sp t ht x).1
  exact ⟨g _ _ (by decide) _ (by decide +kernel), g _ _ (by decide) _ (by decide +kernel), g _ _ (by decide) _ (by decide +kernel),
    g _ _ (by decide) _ (by decide +kernel)⟩

end Urlstd.Props
