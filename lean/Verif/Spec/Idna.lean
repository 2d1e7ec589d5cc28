/-
What the properties assume of the IDNA library. The library (PyICU) is outside the model: `Env` holds
it as a function. Nothing is assumed unless a theorem says so by taking `IdnaOK`.
-/
import Verif.Spec.Example
import Verif.Lemmas.Ascii

namespace Urlstd

/-- Domain to ASCII gives ASCII, leaves its own results alone, and leaves digits and dots alone.
These hold of Unicode IDNA Compatibility Processing (UTS 46) as the URL Standard uses it. -/
structure IdnaOK (env : Env) : Prop where
  ascii : ∀ d a log, domainToAscii env d false = ⟨.ok a, log⟩ → ∀ c ∈ a, c < 128
  fixed : ∀ d a log, domainToAscii env d false = ⟨.ok a, log⟩ → domainToAscii env a false = .ok a
  digits : ∀ s, s ≠ [] → (∀ c ∈ s, Spec.isDigit c = true ∨ c = c!".") → domainToAscii env s false = .ok s

theorem IdnaOK.quiet {env : Env} (h : IdnaOK env) : IdnaOK env.quiet := ⟨h.ascii, h.fixed, h.digits⟩
theorem IdnaOK.recording {env : Env} (h : IdnaOK env) : IdnaOK env.recording := ⟨h.ascii, h.fixed, h.digits⟩

theorem lower_lower (s : Str) : lower (lower s) = lower s := by
  unfold lower
  rw [List.map_map]
  apply List.map_congr_left
  intro c _
  simp only [Function.comp, lowerC, Bool.and_eq_true, decide_eq_true_eq]
  split
  · rw [if_neg (by omega)]
  · rfl

theorem exEnv_idna : IdnaOK exEnv where
  ascii := by
    intro d a log h c hc
    unfold domainToAscii exEnv at h
    by_cases hd : d.all (· < 128) = true
    · simp only [hd, if_true] at h
      by_cases he : (lower d).isEmpty = true
      · simp [he, maskErrors, Res.err] at h
      · simp only [he] at h
        simp [maskErrors, Res.ok] at h
        rw [← h.1] at hc
        simp only [lower, List.mem_map] at hc
        obtain ⟨x, hx, rfl⟩ := hc
        have : x < 128 := by simpa using List.all_eq_true.1 hd x hx
        unfold lowerC
        split
        · rename_i h; simp at h; omega
        · exact this
    · simp only [hd] at h; simp [Res.err] at h
  fixed := by
    intro d a log h
    unfold domainToAscii exEnv at h ⊢
    by_cases hd : d.all (· < 128) = true
    · simp only [hd, if_true] at h
      by_cases he : (lower d).isEmpty = true
      · simp [he, maskErrors, Res.err] at h
      · simp only [he] at h
        simp [maskErrors, Res.ok] at h
        obtain ⟨rfl, _⟩ := h
        have : (lower d).all (· < 128) = true := by
          simp only [List.all_eq_true, lower, List.mem_map, decide_eq_true_eq] at hd ⊢
          rintro y ⟨x, hx, rfl⟩
          have := hd x hx
          unfold lowerC
          split
          · rename_i h; simp at h; omega
          · exact this
        simp only [this, if_true, lower_lower, he]
        simp [maskErrors]
    · simp only [hd] at h; simp [Res.err] at h
  digits := by
    intro s hne hs
    have h1 : s.all (· < 128) = true := by
      simp only [List.all_eq_true, decide_eq_true_eq]
      intro c hc
      rcases hs c hc with h | h
      · simp [Spec.isDigit] at h; omega
      · omega
    have h2 : lower s = s := by
      unfold lower
      conv => rhs; rw [← List.map_id s]
      apply List.map_congr_left
      intro c hc
      unfold lowerC
      rw [if_neg]
      · rfl
      · rcases hs c hc with h | h
        · simp [Spec.isDigit] at h; simp; omega
        · simp; omega
    unfold domainToAscii exEnv
    simp only [h1, if_true, h2]
    have : s.isEmpty = false := by simpa using hne
    simp [this, maskErrors]

end Urlstd
