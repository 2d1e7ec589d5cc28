/-
The href of a URL without credentials whose components are URL units has no validation error.
-/
import Verif.Lemmas.CleanUrl2
import Verif.Lemmas.RoundTrip2

set_option linter.unusedSimpArgs false
set_option linter.unusedVariables false

namespace Urlstd

open Spec (URLUnits Units CleanUrl PathText PathBehind ErrorFree ErrorFreeAbsolute SchemeText Untouched PortString)

section
variable {env : Env}

theorem clean_tail {u : Rec} (h : CleanUrl u) : TailText (tailStr u.query u.fragment) := by
  refine ⟨_, _, rfl, ?_, ?_⟩
  · cases hq : u.query with
    | none => exact .inl rfl
    | some q => exact .inr ⟨q, rfl, h.query q hq⟩
  · cases hf : u.fragment with
    | none => exact .inl rfl
    | some f => exact .inr ⟨f, rfl, h.fragment f hf⟩

theorem segs_units {l : List Str} (h : ∀ p ∈ l, Units p) : Units (serializePath (.list l)) := by
  induction l with
  | nil => exact .nil
  | cons p l ih =>
    show Units (c!"/" :: (p ++ serializePath (.list l)))
    exact .point (by decide) (fun h => h) (units_append (h p (by simp)) (ih fun q hq => h q (by simp [hq])))

theorem clean_pathText {u : Rec} (hw : WF true (HostWF env) u) (h : CleanUrl u) : PathText (restStr u) := by
  unfold restStr
  cases hp : u.path with
  | list l =>
    exact (pathText_split (notQF_segs (hw.parts.segs l hp).segs) (notQF_tail _ _)).2 ⟨segs_units (h.segments l hp), clean_tail h⟩
  | «opaque» t =>
    have ho := hw.path
    unfold PathWF at ho
    rw [hp] at ho
    exact (pathText_split (fun c hc => (ho.1.chars c hc).2) (notQF_tail _ _)).2 ⟨h.text t hp, clean_tail h⟩

theorem clean_host {u : Rec} (he : EnvOK env) (hi : IdnaOK env) (hw : WF true (HostWF env) u) (h : CleanUrl u) {x : Host}
    (hx : u.host = some x) : HostSilent env u.isSpecial (hostSerialize x) := by
  have hwf := hw.auth.host x hx
  cases x with
  | str d =>
    rcases hwf with rfl | ⟨hm, hd⟩ | ⟨hm, hd⟩
    · exact ⟨.str [], rfl⟩
    · have hs : u.isSpecial = false := by simpa using hm
      rw [hs]
      have hb : d.head? ≠ some c!"[" := by
        intro hb
        have := (hd.2 _ (List.mem_of_mem_head? hb)).2.2
        exact absurd this (by decide)
      refine (Props.C98_opaque_host env d hb).2 ?_
      have hu := h.host d hx (by rw [isSpecial_eq]; exact hs)
      have hf : ∀ c ∈ d, ¬ Spec.ForbiddenHostCP c := fun c hc => by
        rw [← isForbiddenHost_iff, (hd.2 c hc).2.2]; simp
      clear hx hd hb
      induction hu with
      | nil => exact .nil
      | point hc hx hs ih => exact .point hc (hf _ (by simp)) (ih fun c hc => hf c (by simp [hc]))
      | byte ha hb hs ih => exact .byte ha hb (ih fun c hc => hf c (by simp [hc]))
    · have hs : u.isSpecial = true := by simpa using hm
      rw [hs]
      exact ⟨_, hostParse_domain hd⟩
  | ipv4 n =>
    have hm : (!u.isSpecial) = false := hwf
    unfold HostSilent
    rw [hm]
    exact ⟨_, hostParse_ipv4 he hi n⟩
  | ipv6 a => exact ⟨_, hostParse_ipv6 hwf _⟩

theorem schemeOK_text {s : Str} (h : SchemeOK s) : SchemeText s := by
  obtain ⟨c, cs, rfl, hc, hcs⟩ := h
  exact ⟨c, cs, rfl, by unfold Spec.Letter; omega, fun x hx => (schemeChar_iff x).1 (hcs x hx).1⟩

theorem schemeOK_lower {s : Str} (h : SchemeOK s) : Spec.toLower s = s := by
  have hs : ∀ x ∈ s, ¬ (65 ≤ x ∧ x ≤ 90) := by
    obtain ⟨c, cs, rfl, hc, hcs⟩ := h
    intro x hx
    rcases List.mem_cons.1 hx with rfl | hx
    · omega
    · exact (hcs x hx).2
  clear h
  unfold Spec.toLower
  induction s with
  | nil => rfl
  | cons c s ih =>
    rw [List.map_cons, ih fun x hx => hs x (by simp [hx])]
    have := hs c (by simp)
    rw [if_neg this]

theorem clean_untouched {u : Rec} (hw : WF true (HostWF env) u) : Untouched u.serialize := by
  have hp : ∀ c ∈ u.serialize, 32 ≤ c := by
    intro c hc
    have := hw.hrefOK.1 c hc
    unfold Spec.Printable at this
    omega
  refine ⟨?_, ?_, fun c hc => by have := hp c hc; omega⟩
  · obtain ⟨c, cs, hsc, hc, _⟩ := hw.auth.scheme
    intro x hh
    rw [serialize_split] at hh
    unfold Rec.beforePath at hh
    rw [hsc] at hh
    simp at hh
    omega
  · intro c hc
    have h1 := hp c (List.mem_of_getLast? hc)
    have h2 : c ≠ 32 := by
      rintro rfl
      exact serialize_last hw hc
    omega

/-- the port and what is behind it -/
theorem port_rest (he : EnvOK env) {n : Nat} (hn : n ≤ 65535) {r : Str} (hr : PathBehind r) : PortRest env (natDec n ++ r) := by
  refine ⟨natDec n, r, rfl, ⟨fun c hc => ?_, ?_⟩, ?_, hr⟩
  · have := natDec_digits n c hc
    rw [isDigit_iff] at this
    exact this
  · rw [decimal_eq (natDec_digits n), natDec_val]; exact hn
  · have : (natDec n).length ≤ 5 := natDec_length (by omega) (by omega)
    rcases he with h | h
    · exact .inl h
    · exact .inr (by omega)

theorem clean_errorFree {u : Rec} (he : EnvOK env) (hi : IdnaOK env) (hw : WF true (HostWF env) u) (h : CleanUrl u)
    (base : Option Rec) : ErrorFree (HostSilent env) (DigitsOK env) base u.serialize := by
  have hser : u.serialize = u.scheme ++ c!":" :: ((match u.host with
      | some h => u!"//" ++ u.serializeCredentials ++ hostSerialize h ++ u.serializePort
      | none => []) ++ ((if u.needsDot then u!"/." else []) ++ restStr u)) := by
    rw [serialize_split]
    unfold Rec.beforePath restStr
    simp only [List.append_assoc]
    rfl
  refine ⟨clean_untouched hw, .inl ⟨u.scheme, _, schemeOK_text hw.auth.scheme, hser, ?_⟩⟩
  rw [schemeOK_lower hw.auth.scheme]
  have hpt := clean_pathText hw h
  cases hh : u.host with
  | none =>
    have hns : u.isSpecial = false := by
      cases h : u.isSpecial
      · rfl
      · exact absurd hh (hw.auth.special h).1
    refine ⟨.inr ?_, fun hs => ?_⟩
    · dsimp only
      rw [List.nil_append]
      by_cases hnd : u.needsDot = true
      · rw [if_pos hnd]
        refine ⟨?_, ?_⟩
        · rintro ⟨t, ht⟩
          cases ht
        · show PathText (c!"/" :: c!"." :: restStr u)
          obtain ⟨p, q, f, h1, h2, h3, h4⟩ := hpt
          exact ⟨c!"/" :: c!"." :: p, q, f, by rw [h1]; rfl, .point (by decide) (by decide) (.point (by decide) (by decide) h2), h3, h4⟩
      · rw [if_neg hnd, List.nil_append]
        refine ⟨?_, hpt⟩
        rintro ⟨t, ht⟩
        have ht : c!"/" :: c!"/" :: t = restStr u := ht
        unfold restStr at ht
        have htl : ∀ c, (tailStr u.query u.fragment).head? = some c → c ≠ c!"/" := by
          intro c hc
          rcases tailStr_head _ _ c hc with rfl | rfl <;> decide
        unfold Rec.needsDot at hnd
        rw [hh] at hnd
        cases hp : u.path with
        | «opaque» s =>
          have ho := hw.path
          unfold PathWF at ho
          rw [hp] at ho
          rw [hp] at ht
          cases s with
          | nil => exact htl c!"/" (by rw [show tailStr u.query u.fragment = serializePath (.opaque []) ++ tailStr u.query u.fragment from rfl, ← ht]; rfl) rfl
          | cons c s =>
            injection ht with h1 h2
            exact ho.1.head (by rw [← h1]; rfl)
        | list l =>
          have hsegs := (hw.parts.segs l hp).segs
          rw [hp] at ht hnd
          cases l with
          | nil => exact htl c!"/" (by rw [show tailStr u.query u.fragment = serializePath (.list []) ++ tailStr u.query u.fragment from rfl, ← ht]; rfl) rfl
          | cons p l =>
            have ht : c!"/" :: c!"/" :: t = c!"/" :: ((p ++ serializePath (.list l)) ++ tailStr u.query u.fragment) := ht
            injection ht with _ ht
            cases p with
            | nil =>
              cases l with
              | nil => exact htl c!"/" (by rw [show tailStr u.query u.fragment = ([] ++ serializePath (.list [])) ++ tailStr u.query u.fragment from rfl, ← ht]; rfl) rfl
              | cons q l => exact hnd rfl
            | cons c p =>
              injection ht with h1 _
              have := ((hsegs _ (List.mem_cons_self)).chars c (by simp)).2
              rw [← h1] at this
              exact absurd this (by cases isSpecialScheme u.scheme <;> decide)
    · rw [isSpecial_eq] at hs
      have hs : u.isSpecial = true := hs
      rw [hns] at hs
      cases hs
  | some x =>
    have hnd : u.needsDot = false := by unfold Rec.needsDot; rw [hh]; simp
    have hcs : u.serializeCredentials = [] := by
      unfold Rec.serializeCredentials Rec.includesCredentials
      rw [h.username, h.password]; simp
    obtain ⟨p, hp⟩ : ∃ p, u.path = .list p := by
      cases hp : u.path with
      | list p => exact ⟨p, rfl⟩
      | «opaque» s =>
        have := hw.path
        unfold PathWF at this
        rw [hp, hh] at this
        cases this.2
    have hpb : PathBehind (restStr u) := ⟨hpt, fun c hc => by
      rcases restStr_head hp c hc with rfl | rfl | rfl <;> simp⟩
    have htext := (hw.auth.host x hh).text
    have hsil := clean_host he hi hw h hh
    dsimp only
    rw [hnd, if_neg (by decide), hcs, List.append_nil, List.nil_append, List.append_assoc, List.append_assoc]
    refine ⟨.inl ⟨_, rfl, ?_⟩, fun _ => ⟨_, rfl⟩⟩
    unfold Spec.BehindSlashes
    by_cases hf : u.scheme = u!"file"
    · rw [if_pos hf]
      have hps : u.serializePort = [] := by unfold Rec.serializePort; rw [(hw.auth.bare (.inr (.inr hf))).2.2]
      have hsp : u.isSpecial = true := by unfold Rec.isSpecial; rw [hf]; decide
      rw [hps, List.nil_append]
      rw [hsp] at hsil
      refine ⟨_, _, rfl, fun c hc => ?_, .inr hsil, ?_, hpb⟩
      · have := htext.chars c hc
        simp only [List.mem_cons, List.not_mem_nil, or_false]
        omega
      · rw [← driveLetter_iff, htext.drive]
        simp
    · rw [if_neg hf, authorityText_iff, hostText_iff]
      have hsp : Spec.isSpecial u.scheme = u.isSpecial := isSpecial_eq _
      rw [hsp]
      have hhead : ∀ c, (u.serializePort ++ restStr u).head? = some c → c = 58 ∨ isAuthorityEnd u.isSpecial c = true := by
        intro c hc
        unfold Rec.serializePort at hc
        cases hport : u.port with
        | none => rw [hport] at hc; exact .inr (restStr_end hp _ c hc)
        | some n => rw [hport] at hc; cases hc; exact .inl rfl
      have hspan := htext.span u.isSpecial _ hhead
      rw [hspan]
      have hempty : hostSerialize x = [] → u.host = some (.str []) := fun h0 => by rw [hh, hostSerialize_nil h0]
      refine ⟨⟨hsil, fun hs h0 => hf ((hw.auth.special hs).2 (hempty h0)), ?_⟩, ?_⟩
      · unfold Rec.serializePort
        cases hport : u.port with
        | none => exact .inr hpb
        | some n =>
          refine .inl ⟨natDec n ++ restStr u, rfl, fun h0 => ?_, port_rest he (hw.auth.port n hport).1 hpb⟩
          have := (hw.auth.bare (.inr (.inl (hempty h0)))).2.2
          rw [hport] at this
          cases this
      · intro hm
        have hm' := hm
        rw [← List.append_assoc, takeWhile_append (a := hostSerialize x ++ u.serializePort)] at hm'
        · rcases List.mem_append.1 hm' with hm | hm
          · exact (htext.chars _ hm).2.2.2.1 rfl
          · unfold Rec.serializePort at hm
            cases hport : u.port with
            | none => rw [hport] at hm; cases hm
            | some n =>
              rw [hport] at hm
              rcases List.mem_cons.1 hm with hm | hm
              · cases hm
              · have := natDec_digits n _ hm
                exact absurd this (by decide)
        · intro c hc
          unfold notEnd
          rcases List.mem_append.1 hc with hc | hc
          · have := htext.chars c hc
            rw [authorityEnd_false (by omega)]; rfl
          · unfold Rec.serializePort at hc
            cases hport : u.port with
            | none => rw [hport] at hc; cases hc
            | some n =>
              rw [hport] at hc
              rcases List.mem_cons.1 hc with rfl | hc
              · cases u.isSpecial <;> rfl
              · have := natDec_digits n _ hc
                rw [isDigit_iff] at this
                rw [authorityEnd_false (by omega)]; rfl
        · intro c hc
          unfold notEnd
          rw [restStr_end hp _ c hc]; rfl

end

end Urlstd
