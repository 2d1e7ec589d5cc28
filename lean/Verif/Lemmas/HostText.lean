/-
`host` in terms of `hostname` and `port`.
-/
import Verif.Spec.HostText
import Verif.Lemmas.Again2
import Verif.Lemmas.Anatomy
import Verif.Lemmas.Ascii

set_option linter.unusedSimpArgs false
set_option linter.unusedVariables false

namespace Urlstd

open Spec (HostPart Closed Visible AuthorityEnd InBrackets TabOrNewline)

theorem removeTab_append (a b : Str) : removeTabNewline (a ++ b) = removeTabNewline a ++ removeTabNewline b := by
  unfold removeTabNewline
  exact List.filter_append ..

theorem isTabNewline_spec {c : Nat} : isTabNewline c = true ↔ TabOrNewline c := by
  simp [isTabNewline, TabOrNewline, or_assoc]

theorem bracketAfter_tabs (s : Str) : ∀ i, bracketAfter i (removeTabNewline s) = bracketAfter i s := by
  induction s with
  | nil => intro i; rfl
  | cons c cs ih =>
    intro i
    by_cases hc : isTabNewline c = true
    · have h1 : removeTabNewline (c :: cs) = removeTabNewline cs := by simp [removeTabNewline, hc]
      rw [h1, ih]
      rw [isTabNewline_spec] at hc
      have h2 : c ≠ 91 ∧ c ≠ 93 := by unfold TabOrNewline at hc; omega
      show _ = bracketAfter (if c = 91 then true else if c = 93 then false else i) cs
      rw [if_neg h2.1, if_neg h2.2]
    · have h1 : removeTabNewline (c :: cs) = c :: removeTabNewline cs := by simp [removeTabNewline, hc]
      rw [h1]
      exact ih _

/-- where the host of an assigned text ends -/
theorem hostSpan_text {sp : Bool} {b r : Str} (hb : HostPart sp b)
    (hr : ∀ c, (removeTabNewline r).head? = some c → AuthorityEnd sp c ∨ (c = 58 ∧ Closed b)) :
    hostSpan sp false (removeTabNewline (b ++ r)) = (removeTabNewline b, removeTabNewline r) := by
  rw [removeTab_append]
  apply hostSpan_parts
  · intro c hc
    exact hb.inside c (List.mem_filter.1 hc).1
  · intro a a' h
    obtain ⟨l1, l2, h1, h2, h3⟩ := List.filter_eq_append_iff.1 h
    obtain ⟨x, y, h4, h5, h6, h7⟩ := List.filter_eq_cons_iff.1 h3
    have hx := hb.colon (l1 ++ x) y (by rw [h1, h4]; simp)
    rw [← bracketAfter_false, ← bracketAfter_tabs, removeTab_append] at hx
    have e1 : removeTabNewline l1 = a := h2
    have e2 : removeTabNewline x = [] := by
      unfold removeTabNewline
      rw [List.filter_eq_nil_iff]
      exact h5
    rw [e1, e2, List.append_nil] at hx
    exact hx
  · intro c hc
    rcases hr c hc with h | ⟨h1, h2⟩
    · exact .inl h
    · refine .inr ⟨h1, ?_⟩
      rw [bracketAfter_tabs]
      unfold Closed at h2
      rw [← bracketAfter_false] at h2
      simpa using h2

theorem removeTab_ne_nil {b : Str} (h : Visible b) : removeTabNewline b ≠ [] := by
  obtain ⟨c, hc, h⟩ := h
  intro e
  unfold removeTabNewline at e
  rw [List.filter_eq_nil_iff] at e
  rw [← isTabNewline_spec] at h
  exact e c hc (by simpa using h)

/-- what `hostname` does with a text that is all host -/
theorem hostnameOut_text (env : Env) (ov : PState) (u : Rec) (b r : Str) (hf : u.scheme ≠ u!"file") (hb : HostPart u.isSpecial b)
    (hr : ∀ c, (removeTabNewline r).head? = some c → AuthorityEnd u.isSpecial c) :
    hostSetOut env ov u (removeTabNewline (b ++ r)) = hostEndOut env u (removeTabNewline b) := by
  unfold hostSetOut
  rw [if_neg hf, hostSpan_text hb (fun c hc => .inl (hr c hc))]
  dsimp only
  unfold hostOut
  cases h : removeTabNewline r with
  | nil => rfl
  | cons c cs =>
    dsimp only
    rw [if_neg]
    rintro rfl
    have := hr 58 (by rw [h]; rfl)
    unfold AuthorityEnd at this
    omega

theorem colon_tab (r : Str) : removeTabNewline (u!":" ++ r) = 58 :: removeTabNewline r := rfl

theorem hostEndOut_visible (env : Env) (u : Rec) (b : Str) (h : b ≠ []) : hostEndOut env u b =
    match (hostParse env b (!u.isSpecial)).res with
    | .error e => (.error e, u)
    | .ok h => (.ok (), { u with host := some h }) := by
  unfold hostEndOut
  have : b.isEmpty = false := by simpa using h
  rw [this, if_neg (by simp), if_neg (by simp)]
  cases (hostParse env b (!u.isSpecial)).res <;> rfl

/-- `host` with a port, on a URL with another scheme than "file" -/
theorem hostOut_port (env : Env) (ov : PState) (u : Rec) (b r : Str) (hf : u.scheme ≠ u!"file") (hb : HostPart u.isSpecial b)
    (hc : Closed b) : hostSetOut env ov u (removeTabNewline (b ++ u!":" ++ r)) =
      if removeTabNewline b = [] then (.error .urlParse, u)
      else if ov = .hostname then (.ok (), u)
      else
        match (hostParse env (removeTabNewline b) (!u.isSpecial)).res with
        | .error e => (.error e, u)
        | .ok h => portOut env { u with host := some h } ((removeTabNewline r).takeWhile isDigit) := by
  unfold hostSetOut
  rw [if_neg hf, List.append_assoc, hostSpan_text hb (fun c h => .inr ⟨by rw [colon_tab] at h; cases h; rfl, hc⟩), colon_tab]
  unfold hostOut
  dsimp only
  rw [if_pos rfl]
  by_cases h : removeTabNewline b = []
  · rw [if_pos (by simpa using h), if_pos h]
  · rw [if_neg (by simpa using h), if_neg h]
    split
    · rfl
    · cases (hostParse env (removeTabNewline b) (!u.isSpecial)).res <;> rfl

theorem hostSpan_inner {sp : Bool} (s : Str) : ∀ i, ∀ c ∈ (hostSpan sp i s).1, isAuthorityEnd sp c = false := by
  induction s with
  | nil => intro i c hc; cases hc
  | cons d ds ih =>
    intro i c hc
    unfold hostSpan at hc
    split at hc
    · cases hc
    · next h =>
      rcases List.mem_cons.1 hc with rfl | hc
      · simp only [Bool.or_eq_true, not_or] at h
        simpa using h.2
      · exact ih _ c hc

/-- a text that is assigned to `host` is a host, with or without a colon behind it, and a rest -/
theorem hostText_split (sp : Bool) (v : Str) : ∃ b r, HostPart sp b ∧ removeTabNewline v = b ++ r ∧
    ((∀ c, r.head? = some c → AuthorityEnd sp c) ∨ ∃ r', r = u!":" ++ r' ∧ Closed b) := by
  obtain ⟨h1, h2, h3⟩ := hostSpan_facts (sp := sp) (removeTabNewline v) false
  refine ⟨(hostSpan sp false (removeTabNewline v)).1, (hostSpan sp false (removeTabNewline v)).2, ⟨?_, ?_⟩, h1, ?_⟩
  · intro c hc
    rw [← authorityEnd_iff, hostSpan_inner _ _ c hc]
    simp
  · intro x y h
    have := h2 x y (by rw [h]; simp)
    exact (bracketAfter_false x).1 this
  · cases h : (hostSpan sp false (removeTabNewline v)).2 with
    | nil => exact .inl (fun c hc => by cases hc)
    | cons c cs =>
      rcases h3 c (by rw [h]; rfl) with h4 | ⟨rfl, h4⟩
      · left
        intro x hx
        cases hx
        exact authorityEnd_iff.1 h4
      · right
        refine ⟨cs, rfl, ?_⟩
        unfold Closed
        rw [← bracketAfter_false, h4]
        simp

end Urlstd
