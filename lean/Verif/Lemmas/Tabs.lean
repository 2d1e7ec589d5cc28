/-
Tabs and newlines in assigned texts.
-/
import Verif.Spec.Tabs
import Verif.Lemmas.Assign
import Verif.Lemmas.Prepare

set_option linter.unusedSimpArgs false
set_option linter.unusedVariables false

namespace Urlstd

open Spec (TabOrNewline MarkBehindTab TabsMatter Assignment IsStr combineSurrogates Surrogate CannotHaveUPP)

/-! ### The length of an encoded text -/

/-- the length of the encoded form of a code point -/
def cpLength (keep : Nat → Bool) (c : Nat) : Nat := (Spec.percentEncode keep false (Spec.utf8CP c)).length

/-- the length of the encoded form of a text -/
def encLength (keep : Nat → Bool) (s : Str) : Nat := (Spec.percentEncode keep false (Spec.utf8 s)).length

/-- the same from the code points -/
def cpsLength (keep : Nat → Bool) : Str → Nat
  | [] => 0
  | c :: cs => cpLength keep c + cpsLength keep cs

theorem encLength_eq (keep : Nat → Bool) (s : Str) : encLength keep s = cpsLength keep (combineSurrogates s) := by
  unfold encLength Spec.utf8
  generalize combineSurrogates s = l
  induction l with
  | nil => rfl
  | cons c cs ih =>
    rw [cpsLength, ← ih, List.flatMap_cons]
    unfold Spec.percentEncode cpLength
    rw [List.flatMap_append, List.length_append]
    rfl

theorem byteLength_le (keep : Nat → Bool) (bs : Bytes) : (Spec.percentEncode keep false bs).length ≤ 3 * bs.length := by
  unfold Spec.percentEncode
  induction bs with
  | nil => simp
  | cons b bs ih =>
    rw [List.flatMap_cons, List.length_append, List.length_cons]
    have : (if false = true ∧ b = 32 then [43] else if keep b = true then [b] else Spec.pct b).length ≤ 3 := by
      rw [if_neg (by simp)]
      split <;> simp [Spec.pct]
    omega

theorem cpLength_le (keep : Nat → Bool) (c : Nat) : cpLength keep c ≤ 12 := by
  unfold cpLength
  have h := byteLength_le keep (Spec.utf8CP c)
  have : (Spec.utf8CP c).length ≤ 4 := by
    unfold Spec.utf8CP
    split
    · simp
    · split
      · simp
      · split <;> simp
  omega

/-- the bytes outside ASCII are encoded -/
def QuotesHigh (keep : Nat → Bool) : Prop := ∀ b, 128 ≤ b → keep b = false

theorem cpLength_fffd {keep : Nat → Bool} (hk : QuotesHigh keep) : cpLength keep 0xFFFD = 9 := by
  unfold cpLength
  rw [show Spec.utf8CP 0xFFFD = [0xEF, 0xBF, 0xBD] by decide]
  simp [Spec.percentEncode, hk 0xEF (by decide), hk 0xBF (by decide), hk 0xBD (by decide), Spec.pct]

theorem combine_lone {a : Nat} (h : Surrogate a) : combineSurrogates [a] = [0xFFFD] := by
  have e : combineSurrogates [a] = if Surrogate a then [0xFFFD] else [a] := rfl
  rw [e, if_pos h]

theorem combine_low {a : Nat} (h : 0xDC00 ≤ a ∧ a ≤ 0xDFFF) (t : Str) : combineSurrogates (a :: t) = 0xFFFD :: combineSurrogates t := by
  have hs : Surrogate a := by unfold Surrogate; omega
  cases t with
  | nil => exact combine_lone hs
  | cons b r =>
    rw [combineSurrogates, if_neg, if_pos hs]
    rintro ⟨h1, -⟩
    omega

theorem encLength_surrogate {keep : Nat → Bool} (hk : QuotesHigh keep) {a : Nat} (ha : Surrogate a) (t : Str) :
    encLength keep (a :: t) ≤ 9 + encLength keep t := by
  rw [encLength_eq, encLength_eq]
  cases t with
  | nil =>
    rw [combine_lone ha, cpsLength, cpLength_fffd hk]
    exact Nat.le_refl _
  | cons b r =>
    by_cases h : (0xD800 ≤ a ∧ a ≤ 0xDBFF) ∧ (0xDC00 ≤ b ∧ b ≤ 0xDFFF)
    · rw [combineSurrogates, if_pos h, combine_low h.2, cpsLength, cpsLength, cpLength_fffd hk]
      have := cpLength_le keep (0x10000 + (a - 0xD800) * 1024 + (b - 0xDC00))
      omega
    · rw [combineSurrogates, if_neg h, if_pos ha, cpsLength, cpLength_fffd hk]
      exact Nat.le_refl _

theorem dropTabs_cons_tab {c : Nat} (h : TabOrNewline c) (t : Str) : Spec.dropTabs (c :: t) = Spec.dropTabs t := by
  simp [Spec.dropTabs, h]

theorem dropTabs_cons {c : Nat} (h : ¬ TabOrNewline c) (t : Str) : Spec.dropTabs (c :: t) = c :: Spec.dropTabs t := by
  simp [Spec.dropTabs, h]

theorem not_tab_of {c : Nat} (h : 14 ≤ c) : ¬ TabOrNewline c := by unfold TabOrNewline; omega

theorem cpLength_tab (keep : Nat → Bool) {c : Nat} (h : TabOrNewline c) : 0 < cpLength keep c := by
  unfold cpLength Spec.percentEncode
  rw [show Spec.utf8CP c = [c] by unfold Spec.utf8CP; rw [if_pos (by unfold TabOrNewline at h; omega)]]
  rw [List.flatMap_cons, List.flatMap_nil, List.append_nil, if_neg (by simp)]
  split <;> simp [Spec.pct]

/-- a text does not become longer, and becomes shorter if there are tabs or newlines in it -/
theorem encLength_tabs {keep : Nat → Bool} (hk : QuotesHigh keep) (s : Str) :
    encLength keep (Spec.dropTabs s) ≤ encLength keep s ∧
      ((∃ c ∈ s, TabOrNewline c) → encLength keep (Spec.dropTabs s) < encLength keep s) := by
  have hsur : ∀ {a : Nat}, Surrogate a → ¬ TabOrNewline a := fun h => not_tab_of (by unfold Surrogate at h; omega)
  have scalar : ∀ (a : Nat) (t : Str), ¬ Surrogate a → (encLength keep (Spec.dropTabs t) ≤ encLength keep t ∧
      ((∃ c ∈ t, TabOrNewline c) → encLength keep (Spec.dropTabs t) < encLength keep t)) →
      (encLength keep (Spec.dropTabs (a :: t)) ≤ encLength keep (a :: t) ∧
      ((∃ c ∈ a :: t, TabOrNewline c) → encLength keep (Spec.dropTabs (a :: t)) < encLength keep (a :: t))) := by
    intro a t ha ih
    have e : ∀ l : Str, encLength keep (a :: l) = cpLength keep a + encLength keep l := fun l => by
      rw [encLength_eq, encLength_eq, combine_scalar ha, cpsLength]
    by_cases ht : TabOrNewline a
    · rw [dropTabs_cons_tab ht, e]
      have := cpLength_tab keep ht
      exact ⟨by omega, fun _ => by omega⟩
    · rw [dropTabs_cons ht, e, e]
      refine ⟨by omega, fun ⟨c, hc, hn⟩ => ?_⟩
      rcases List.mem_cons.1 hc with rfl | hc
      · exact absurd hn ht
      · have := ih.2 ⟨c, hc, hn⟩
        omega
  have lone : ∀ (a : Nat) (t : Str), Surrogate a → encLength keep (a :: t) = 9 + encLength keep t →
      (encLength keep (Spec.dropTabs t) ≤ encLength keep t ∧
      ((∃ c ∈ t, TabOrNewline c) → encLength keep (Spec.dropTabs t) < encLength keep t)) →
      (encLength keep (Spec.dropTabs (a :: t)) ≤ encLength keep (a :: t) ∧
      ((∃ c ∈ a :: t, TabOrNewline c) → encLength keep (Spec.dropTabs (a :: t)) < encLength keep (a :: t))) := by
    intro a t ha e ih
    rw [dropTabs_cons (hsur ha), e]
    have h := encLength_surrogate hk ha (Spec.dropTabs t)
    refine ⟨by omega, fun ⟨c, hc, hn⟩ => ?_⟩
    rcases List.mem_cons.1 hc with rfl | hc
    · exact absurd hn (hsur ha)
    · have := ih.2 ⟨c, hc, hn⟩
      omega
  fun_induction combineSurrogates s with
  | case1 => exact ⟨Nat.le_refl _, fun ⟨c, hc, _⟩ => by cases hc⟩
  | case2 a h =>
    refine lone a [] h ?_ ⟨Nat.le_refl _, fun ⟨c, hc, _⟩ => by cases hc⟩
    rw [encLength_eq, encLength_eq, combine_lone h, cpsLength, cpLength_fffd hk]
    rfl
  | case3 a h => exact scalar a [] h ⟨Nat.le_refl _, fun ⟨c, hc, _⟩ => by cases hc⟩
  | case4 a b rest h ih =>
    have ha : ¬ TabOrNewline a := not_tab_of (by omega)
    have hb : ¬ TabOrNewline b := not_tab_of (by omega)
    have e : ∀ l : Str, encLength keep (a :: b :: l) = cpLength keep (0x10000 + (a - 0xD800) * 1024 + (b - 0xDC00)) + encLength keep l :=
      fun l => by rw [encLength_eq, encLength_eq, combineSurrogates, if_pos h, cpsLength]
    rw [dropTabs_cons ha, dropTabs_cons hb, e, e]
    refine ⟨by omega, fun ⟨c, hc, hn⟩ => ?_⟩
    rcases List.mem_cons.1 hc with rfl | hc
    · exact absurd hn ha
    · rcases List.mem_cons.1 hc with rfl | hc
      · exact absurd hn hb
      · have := ih.2 ⟨c, hc, hn⟩
        omega
  | case5 a b rest h1 h2 ih =>
    refine lone a (b :: rest) h2 ?_ ih
    rw [encLength_eq, encLength_eq, combineSurrogates, if_neg h1, if_pos h2, cpsLength, cpLength_fffd hk]
  | case6 a b rest h1 h2 ih => exact scalar a (b :: rest) h2 ih

theorem userinfo_quotesHigh : QuotesHigh (fun b => !Spec.userinfoSet b) := by
  intro b hb
  simp [Spec.userinfoSet, Spec.pathSet, Spec.querySet, Spec.c0Set]
  omega

/-- a tab in credentials is never lost -/
theorem userinfoEncode_tabs (v : Str) (h : ∃ c ∈ v, TabOrNewline c) : Spec.userinfoEncode (Spec.dropTabs v) ≠ Spec.userinfoEncode v := by
  intro e
  have := (encLength_tabs userinfo_quotesHigh v).2 h
  unfold encLength at this
  unfold Spec.userinfoEncode at e
  rw [e] at this
  exact absurd this (Nat.lt_irrefl _)

theorem dropTabs_noTab {v : Str} (h : ¬ ∃ c ∈ v, TabOrNewline c) : Spec.dropTabs v = v := by
  unfold Spec.dropTabs
  rw [List.filter_eq_self]
  intro c hc
  simpa using fun hn => h ⟨c, hc, hn⟩

/-! ### Marks -/

/-- without a mark behind a tab, taking off the mark and dropping tabs commute -/
theorem mark_tabs {c : Nat} (hc : ¬ TabOrNewline c) {v : Str} (h : ¬ MarkBehindTab c v) (hv : v ≠ []) :
    Spec.dropTabs v ≠ [] ∧ removeTabNewline (dropLead c (Spec.dropTabs v)) = removeTabNewline (dropLead c v) := by
  cases v with
  | nil => exact absurd rfl hv
  | cons d t =>
    by_cases hd : TabOrNewline d
    · have hx : ∃ x, (Spec.dropTabs t).head? = some x ∧ x ≠ c := by
        by_cases hn : ∃ x, (Spec.dropTabs t).head? = some x ∧ x ≠ c
        · exact hn
        · refine absurd ⟨d, t, rfl, hd, fun x hx => ?_⟩ h
          by_cases e : x = c
          · exact e
          · exact absurd ⟨x, hx, e⟩ hn
      obtain ⟨x, hx, hne⟩ := hx
      rw [dropTabs_cons_tab hd]
      cases ht : Spec.dropTabs t with
      | nil => rw [ht] at hx; cases hx
      | cons y l =>
        rw [ht] at hx
        cases hx
        refine ⟨by simp, ?_⟩
        have e1 : dropLead c (x :: l) = x :: l := unmarked_eq (.inr ⟨rfl, by simpa using hne⟩)
        have e2 : dropLead c (d :: t) = d :: t := unmarked_eq (.inr ⟨rfl, by simp; rintro rfl; exact hc hd⟩)
        rw [e1, e2, ← dropTabs_eq (d :: t), dropTabs_cons_tab hd, ht, ← ht, dropTabs_eq, removeTabNewline_idem]
    · rw [dropTabs_cons hd]
      refine ⟨by simp, ?_⟩
      by_cases e : d = c
      · subst e
        rw [unmarked_eq (.inl rfl), unmarked_eq (.inl rfl), dropTabs_eq, removeTabNewline_idem]
      · rw [unmarked_eq (t := d :: Spec.dropTabs t) (.inr ⟨rfl, by simpa using e⟩), unmarked_eq (t := d :: t) (.inr ⟨rfl, by simpa using e⟩),
          ← dropTabs_cons hd, dropTabs_eq, removeTabNewline_idem]

/-- and with one they do not -/
theorem mark_behind {c : Nat} (hc : ¬ TabOrNewline c) {v : Str} (h : MarkBehindTab c v) :
    v ≠ [] ∧ (Spec.dropTabs v = [] ∨ ∃ l, Spec.dropTabs v = c :: l ∧ removeTabNewline (dropLead c v) = c :: l ∧
      removeTabNewline (dropLead c (Spec.dropTabs v)) = l) := by
  obtain ⟨d, t, rfl, hd, hx⟩ := h
  refine ⟨by simp, ?_⟩
  rw [dropTabs_cons_tab hd]
  cases ht : Spec.dropTabs t with
  | nil => exact .inl rfl
  | cons y l =>
    right
    have := hx y (by rw [ht]; rfl)
    subst this
    have e2 : dropLead y (d :: t) = d :: t := unmarked_eq (.inr ⟨rfl, by simp; rintro rfl; exact hc hd⟩)
    refine ⟨l, rfl, ?_, ?_⟩
    · rw [e2, ← dropTabs_eq, dropTabs_cons_tab hd, ht]
    · rw [unmarked_eq (.inl rfl)]
      have e3 : Spec.dropTabs (y :: l) = y :: l := by rw [← ht, dropTabs_eq, dropTabs_eq, removeTabNewline_idem]
      rw [dropTabs_cons hc] at e3
      injection e3 with _ e3
      rw [← dropTabs_eq, e3]

/-- a character in front makes the encoded form longer -/
theorem encode_front (safe : Nat → Bool) {c : Nat} (hc : c < 128) (l : Str) : utf8PercentEncode (c :: l) safe ≠ utf8PercentEncode l safe := by
  intro e
  rw [utf8PercentEncode_false, utf8PercentEncode_false, show (c :: l) = [] ++ c :: l from rfl, utf8Encode_append hc] at e
  have := congrArg List.length e
  rw [show utf8Encode [] = [] from rfl, List.nil_append, List.flatMap_cons, List.length_append] at this
  have h0 : (quoter safe c).length = 0 := by omega
  unfold quoter at h0
  split at h0 <;> simp [pctByte] at h0

theorem stripOpaque_query (u : Rec) : (potentiallyRstrip u).query = u.query ∧ (potentiallyRstrip u).fragment = u.fragment := by
  rcases rstrip_cases u with h | ⟨s, w, _, _, _, h, _⟩ <;> rw [h] <;> exact ⟨rfl, rfl⟩

end Urlstd
