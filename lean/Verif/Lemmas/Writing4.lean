/-
Valid URL strings: their code points, their hosts, and the whole parse.
-/
import Verif.Lemmas.Writing3
import Verif.Lemmas.HostReports
import Verif.Lemmas.ValidHost

set_option linter.unusedSimpArgs false
set_option linter.unusedVariables false

namespace Urlstd

open Spec (URLUnits QueryPart FragmentPart PathRelative PathAbsolute PathPart PortPart PortString Letter PathAbsoluteNonWindows
  PathRelativeSchemeless SchemeRelativeSpecial SchemeRelativeFile SchemeRelative OpaqueHostAndPort RelativeOther RelativeURL AbsoluteURL
  ValidURL HasScheme SchemeText)

/-- no space and no control -/
def Visible (s : Str) : Prop := ∀ c ∈ s, 0x20 < c

theorem Visible.append {a b : Str} (ha : Visible a) (hb : Visible b) : Visible (a ++ b) := by
  intro c hc
  rcases List.mem_append.1 hc with h | h
  · exact ha c h
  · exact hb c h

theorem Visible.cons {c : Nat} {b : Str} (hc : 0x20 < c) (hb : Visible b) : Visible (c :: b) := by
  intro x hx
  rcases List.mem_cons.1 hx with rfl | h
  · exact hc
  · exact hb x h

theorem Visible.nil : Visible [] := fun c hc => by cases hc

theorem urlCodePoint_visible {c : Nat} (h : Spec.URLCodePoint c) : 0x20 < c := by
  rcases h with h | h | h | h
  · unfold Letter at h; omega
  · unfold Spec.Digit at h; omega
  · simp only [List.mem_cons, List.not_mem_nil, or_false] at h; omega
  · omega

theorem units_visible {ex : Nat → Prop} {s : Str} (h : URLUnits ex s) : Visible s := by
  intro c hc
  rcases units_char h c hc with h | rfl | h
  · have := hex_lt h; omega
  · decide
  · exact urlCodePoint_visible h.1

theorem pathPart_visible {p : Str} (h : PathPart p) : Visible p := by
  rcases h with rfl | ⟨p, rfl, h⟩
  · exact .nil
  · exact .cons (by decide) (units_visible (pathRelative_units h))

theorem portPart_visible {p : Str} (h : PortPart p) : Visible p := by
  rcases h with rfl | ⟨p, rfl, h⟩
  · exact .nil
  · refine .cons (by decide) fun c hc => ?_
    have := h.1 c hc
    unfold Spec.Digit at this
    omega

theorem queryPart_visible {q : Str} (h : QueryPart q) : Visible q := by
  rcases h with rfl | ⟨p, rfl, h⟩
  · exact .nil
  · exact .cons (by decide) (units_visible h)

theorem fragmentPart_visible {q : Str} (h : FragmentPart q) : Visible q := by
  rcases h with rfl | ⟨p, rfl, h⟩
  · exact .nil
  · exact .cons (by decide) (units_visible h)

section
variable {vh vo : Str → Prop} (h1 : ∀ h, vh h → Visible h) (h2 : ∀ h, vo h → Visible h)

include h1 in
theorem special_visible {s : Str} (h : SchemeRelativeSpecial vh s) : Visible s := by
  obtain ⟨host, port, path, rfl, hh, hpo, hpa⟩ := h
  exact ((Visible.append (.cons (by decide) (.cons (by decide) .nil)) (h1 _ hh)).append (portPart_visible hpo)).append (pathPart_visible hpa)

include h1 in
theorem file_visible {s : Str} (h : SchemeRelativeFile vh s) : Visible s := by
  rcases h with ⟨host, path, rfl, hh, hpa⟩ | ⟨path, rfl, hpa⟩
  · refine (Visible.append (.cons (by decide) (.cons (by decide) .nil)) (h1 _ hh)).append ?_
    rcases hpa with rfl | hpa
    · exact .nil
    · exact pathPart_visible (.inr hpa.1)
  · exact Visible.append (.cons (by decide) (.cons (by decide) .nil)) (pathPart_visible (.inr hpa))

include h2 in
theorem other_visible {s : Str} (h : RelativeOther vo s) : Visible s := by
  rcases h with ⟨hp, path, rfl, hhp, hpa⟩ | h | h
  · refine (Visible.append (.cons (by decide) (.cons (by decide) .nil)) ?_).append (pathPart_visible hpa)
    rcases hhp with rfl | ⟨host, port, rfl, hh, hpo⟩
    · exact .nil
    · exact (h2 _ hh).append (portPart_visible hpo)
  · exact pathPart_visible (.inr h)
  · exact units_visible (pathRelative_units h.1)

include h1 h2 in
theorem validURL_visible {base : Option Rec} {scheme s : Str} (h : ValidURL vh vo base scheme s) : Visible s := by
  obtain ⟨front, q, f, rfl, hq, hf, h⟩ := h
  refine (Visible.append ?_ (queryPart_visible hq)).append (fragmentPart_visible hf)
  rcases h with ⟨sc, rest, ⟨c, cs, rfl, hc, hcs⟩, -, rfl, h⟩ | ⟨b, -, -, h⟩
  · refine Visible.append ?_ (.cons (by decide) ?_)
    · intro x hx
      have : Letter x ∨ Spec.Digit x ∨ x = c!"+" ∨ x = c!"-" ∨ x = c!"." := by
        rcases List.mem_cons.1 hx with rfl | hx
        · exact .inl hc
        · exact hcs x hx
      unfold Letter Spec.Digit at this
      omega
    · split at h
      · exact file_visible h1 h
      · split at h
        · exact special_visible h1 h
        · exact other_visible h2 h
  · unfold RelativeURL at h
    split at h
    · rcases h with h | ⟨-, h⟩ | ⟨-, h⟩ | h
      · exact file_visible h1 h
      · exact pathPart_visible (.inr h)
      · exact pathPart_visible (.inr h.1)
      · exact units_visible (pathRelative_units h.1)
    · split at h
      · rcases h with h | h | h
        · exact special_visible h1 h
        · exact pathPart_visible (.inr h)
        · exact units_visible (pathRelative_units h.1)
      · exact other_visible h2 h

end

theorem visible_prepared {s : Str} (h : Visible s) : prepared s none = s ∧ initLog s none = [] := by
  have hc : ∀ c ∈ s, isC0OrSpace c = false := by
    intro c hc
    have := h c hc
    unfold isC0OrSpace
    simp
    omega
  have hs : stripBoth isC0OrSpace s = s :=
    stripBoth_self.2 ⟨fun c h => hc c (List.mem_of_mem_head? h), fun c h => hc c (List.mem_of_mem_getLast? h)⟩
  have ht : ∀ c ∈ s, isTabNewline c = false := by
    intro c hc
    have := h c hc
    unfold isTabNewline
    simp
    omega
  constructor
  · show removeTabNewline (stripBoth isC0OrSpace s) = s
    rw [hs]
    unfold removeTabNewline
    rw [List.filter_eq_self]
    intro c hc
    rw [ht c hc]
    rfl
  · unfold initLog
    dsimp only
    rw [hs, if_pos rfl, if_neg]
    rw [List.any_eq_true]
    rintro ⟨c, hc, h⟩
    rw [ht c hc] at h
    cases h

theorem absolute_scheme {vh vo : Str → Prop} {scheme front q f : Str} (h : AbsoluteURL vh vo scheme front) : HasScheme (front ++ q ++ f) := by
  obtain ⟨sc, rest, hsc, -, rfl, -⟩ := h
  exact ⟨sc, rest ++ q ++ f, hsc, by simp⟩

/-- A valid URL string is parsed without a validation error. -/
theorem basicParse_silent {env : Env} {vh vo : Str → Prop} (hv : HostsOK env vh vo) (h1 : ∀ h, vh h → Visible h) (h2 : ∀ h, vo h → Visible h)
    {base : Option Rec} {scheme s : Str} (e : Encoding) (hb : ∀ b t, base = some b → b.path = .opaque t → HasScheme s)
    (hl : env.maxStrDigits = 0 ∨ s.length ≤ env.maxStrDigits) (h : ValidURL vh vo base scheme s) :
    ∃ u, basicParse env s base e = ⟨.ok (), u, []⟩ ∧ u.scheme = scheme := by
  have hvis := visible_prepared (validURL_visible h1 h2 h)
  rw [basicParse_run, hvis.1, hvis.2]
  obtain ⟨front, q, f, rfl, hq, hf, h⟩ := h
  have hl' : env.maxStrDigits = 0 ∨ front.length ≤ env.maxStrDigits := by
    rcases hl with h | h
    · exact .inl h
    · simp only [List.length_append] at h
      exact .inr (by omega)
  have fin : Silent env e base .schemeStart (front ++ (q ++ f)) {} scheme := by
    rcases h with h | ⟨b, rfl, rfl, h⟩
    · exact silent_absolute hv hl' h hq hf
    · cases hp : b.path with
      | list segs => exact silent_relativeURL hv hp hl' h hq hf
      | «opaque» t =>
        exfalso
        have hs := hb b t rfl hp
        rw [List.append_assoc] at hs
        refine relative_no_scheme ?_ hq hf hs
        unfold RelativeURL at h
        have slash : ∀ {x : Str}, PathAbsolute x → x.head? = some c!"/" := by rintro x ⟨p, rfl, -⟩; rfl
        split at h
        · rcases h with (⟨host, path, rfl, -⟩ | ⟨path, rfl, -⟩) | ⟨-, h⟩ | ⟨-, h, -⟩ | h
          · exact .inl rfl
          · exact .inl rfl
          · exact .inl (slash h)
          · exact .inl (slash h)
          · exact .inr h
        · split at h
          · rcases h with ⟨host, port, path, rfl, -⟩ | h | h
            · exact .inl rfl
            · exact .inl (slash h)
            · exact .inr h
          · rcases h with ⟨hp, path, rfl, -⟩ | h | h
            · exact .inl rfl
            · exact .inl (slash h)
            · exact .inr h
  rw [List.append_assoc]
  exact fin (front ++ (q ++ f)) 0 maxSteps [] rfl (by decide)

/-! ### Hosts -/

theorem units_no_escape {ex : Nat → Prop} {s : Str} (h : URLUnits ex s) : Spec.badEscape s = false := by
  have hex : ∀ c cs, isHex c = true → Spec.badEscape (c :: cs) = Spec.badEscape cs := by
    intro c cs hc
    rw [Spec.badEscape]
    have : c ≠ c!"%" := by rintro rfl; revert hc; decide
    simp [this]
  induction h with
  | nil => rfl
  | @point c s hc hx hs ih =>
    rw [Spec.badEscape, ih]
    have : c ≠ c!"%" := by rintro rfl; revert hc; decide
    simp [this]
  | @byte a b s ha hb hs ih =>
    rw [Spec.badEscape, hex _ _ ha, hex _ _ hb, ih]
    simp [Spec.startsWithTwoHex, ha, hb]

theorem urlUnitsError_units {ex : Nat → Prop} {s : Str} (h : URLUnits ex s) : urlUnitsError (fun _ => false) s = none := by
  unfold urlUnitsError
  have h1 : s.find? (fun c => false || !(isUrlCP c || c == c!"%")) = none := by
    rw [List.find?_eq_none]
    intro c hc
    rcases units_char h c hc with h | rfl | h
    · have : isUrlCP c = true := by
        rw [← urlCodePoint_iff]
        have := hex_lt h
        unfold Spec.URLCodePoint Letter Spec.Digit
        omega
      simp [this]
    · decide
    · rw [urlCodePoint_iff] at h
      simp [h.1]
  rw [h1]
  dsimp only
  have h2 := units_no_escape h
  rw [badEscape_eq, List.any_eq_false] at h2
  rw [List.find?_eq_none.2 h2]

/-- a text of URL units without forbidden host code points is an opaque host -/
theorem fine_opaque (env : Env) {h : Str} (hne : h ≠ []) (hu : URLUnits Spec.ForbiddenHostCP h) : FineHost env true h := by
  have hc : ∀ c ∈ h, ¬ Spec.ForbiddenHostCP c := by
    intro c hc
    rcases units_char hu c hc with h | rfl | h
    · have := hex_lt h
      unfold Spec.ForbiddenHostCP
      omega
    · decide
    · exact h.2
  refine ⟨.inl fun c hcm hm => hc c hcm ?_, ?_⟩
  · simp only [List.mem_cons, List.not_mem_nil, or_false] at hm
    unfold Spec.ForbiddenHostCP
    omega
  · cases h with
    | nil => exact absurd rfl hne
    | cons c t =>
      refine ⟨.str (utf8PercentEncode (c :: t) safeC0), ?_⟩
      have hb : c ≠ c!"[" := by
        rintro rfl
        exact hc c!"[" (by simp) (by decide)
      have hf : ¬ (c :: t).any isForbiddenHost = true := by
        rw [List.any_eq_true]
        rintro ⟨x, hx, h⟩
        exact hc x hx ((isForbiddenHost_iff x).1 h)
      unfold hostParse
      dsimp only
      rw [if_neg hb, if_pos rfl]
      unfold parseOpaqueHost
      rw [if_neg hf, urlUnitsError_units hu]
      rfl

/-- an IPv6 address in brackets -/
theorem fine_ipv6 (env : Env) (he : EnvOK env) (m : Bool) {a : Str} (ha : Spec.IPv6Text a) (hr : Spec.Regular6 a) :
    FineHost env m (u!"[" ++ a ++ u!"]") := by
  refine ⟨.inr ⟨a, rfl, fun c hc hm => ?_⟩, ?_⟩
  · simp only [List.mem_cons, List.not_mem_nil, or_false] at hm
    rcases ha.1 c hc with h | h | h
    · have := hex_lt h; omega
    · omega
    · omega
  · have := C15_core he hr
    have hs := ha.2
    rw [← this] at hs
    rw [hostParse_bracketed]
    rcases hr : ipv6Parse env a with ⟨r, log⟩
    rw [hr] at hs
    cases r with
    | error e => cases hs
    | ok p => exact ⟨.ipv6 p, by rw [ipv6Parse_ok_log hr]⟩

end Urlstd
