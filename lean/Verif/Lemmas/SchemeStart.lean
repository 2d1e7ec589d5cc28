/-
The start of the parser: inputs that begin with a scheme.
-/
import Verif.Lemmas.Slashes

set_option linter.unusedSimpArgs false
set_option linter.unusedVariables false

namespace Urlstd

open Spec (IsStr SchemeText Letter slashes)

theorem isAlpha_iff {c : Nat} : isAlpha c = true ↔ Letter c := by
  simp [isAlpha, Letter]

theorem toLower_eq (s : Str) : lower s = Spec.toLower s := by
  unfold lower Spec.toLower
  apply List.map_congr_left
  intro c _
  unfold lowerC
  by_cases h : 65 ≤ c ∧ c ≤ 90
  · rw [if_pos (by simpa using h), if_pos h]; omega
  · rw [if_neg (by simpa using h), if_neg h]

theorem schemeChar_of {x : Nat} (h : Letter x ∨ Spec.Digit x ∨ x = 43 ∨ x = 45 ∨ x = 46) : isSchemeChar x = true := by
  simp only [isSchemeChar, isAlnum, isAlpha, isDigit, Letter, Spec.Digit] at *
  simp
  omega

theorem takeScheme_any {sc : Str} (h : SchemeText sc) (r : Str) :
    takeScheme (sc ++ 58 :: r) = some (Spec.toLower sc, r) := by
  obtain ⟨c, cs, rfl, hc, hcs⟩ := h
  have h1 : ∀ x ∈ cs, isSchemeChar x = true := fun x hx => schemeChar_of (hcs x hx)
  have h2 : ∀ x, (58 :: r : Str).head? = some x → isSchemeChar x = false := by
    intro x hx
    simp at hx; subst hx; decide
  rw [List.cons_append]
  unfold takeScheme
  dsimp only
  rw [if_neg (by rw [isAlpha_iff.2 hc]; simp), dropWhile_append h1 h2, takeWhile_append h1 h2]
  dsimp only
  rw [if_pos rfl, toLower_eq]

theorem Spec.SchemeText.clean {sc : Str} (h : SchemeText sc) : ∀ c ∈ sc, isC0OrSpace c = false := by
  obtain ⟨c, cs, rfl, hc, hcs⟩ := h
  intro x hx
  have : Letter x ∨ Spec.Digit x ∨ x = 43 ∨ x = 45 ∨ x = 46 := by
    rcases List.mem_cons.1 hx with rfl | hx
    · exact .inl hc
    · exact hcs x hx
  simp only [isC0OrSpace, Letter, Spec.Digit] at *
  simp
  omega

theorem Spec.SchemeText.prepared {sc : Str} (h : SchemeText sc) (r : Str) :
    prepared (sc ++ 58 :: r) none = sc ++ 58 :: prepEnd r := by
  have : sc ++ 58 :: r = (sc ++ [58]) ++ r := by simp
  rw [this, prepared_append]
  · simp
  · intro c hc
    rcases List.mem_append.1 hc with hc | hc
    · exact h.clean c hc
    · simp at hc; subst hc; decide
  · simp

/-- the lower-cased scheme decides -/
theorem toLower_letter {x y : Nat} (h : (if 65 ≤ x ∧ x ≤ 90 then x - 65 + 97 else x) =
    (if 65 ≤ y ∧ y ≤ 90 then y - 65 + 97 else y)) :
    (Letter x ↔ Letter y) ∧ (¬ Letter x → x = y) := by
  simp only [Letter]
  split at h <;> split at h <;> omega

theorem Spec.SchemeText.congr {s t : Str} (h : SchemeText s) (ht : Spec.toLower s = Spec.toLower t) : SchemeText t := by
  obtain ⟨c, cs, rfl, hc, hcs⟩ := h
  cases t with
  | nil => simp [Spec.toLower] at ht
  | cons d ds =>
    simp only [Spec.toLower, List.map_cons, List.cons.injEq] at ht
    refine ⟨d, ds, rfl, (toLower_letter ht.1).1.1 hc, ?_⟩
    obtain ⟨-, ht⟩ := ht
    clear hc
    induction cs generalizing ds with
    | nil =>
      cases ds with
      | nil => simp
      | cons _ _ => simp at ht
    | cons x xs ih =>
      cases ds with
      | nil => simp at ht
      | cons y ys =>
        simp only [List.map_cons, List.cons.injEq] at ht
        intro z hz
        rcases List.mem_cons.1 hz with rfl | hz
        · have := toLower_letter ht.1
          rcases hcs x (by simp) with h | h
          · exact .inl (this.1.1 h)
          · by_cases hl : Letter x
            · exact .inl (this.1.1 hl)
            · rw [← this.2 hl]; exact .inr h
        · exact ih (fun w hw => hcs w (by simp [hw])) ys ht.2 z hz

theorem parse_scheme {env : Env} {e : Encoding} {base : Option Rec} {sc : Str} (h : SchemeText sc) (r : Str) :
    (basicParse env (sc ++ 58 :: r) base e).toExcept =
      Fin.toExcept ((
        let url : Rec := { scheme := Spec.toLower sc }
        if url.scheme = u!"file" then SOut.to .file (prepEnd r) url
        else if url.isSpecial then
          if (match base with | some b => b.scheme == url.scheme | none => false) then
            .to .specialRelativeOrAuthority (prepEnd r) url
          else .to .specialAuthoritySlashes (prepEnd r) url
        else if (prepEnd r).head? = some c!"/" then .to .pathOrAuthority (prepEnd r).tail url
        else .to .opaquePath (prepEnd r) { url with path := .opaque [] }).andThen env e base none) := by
  rw [basicParse_toExcept, h.prepared, eval_step _ _ _ _ (by decide)]
  show Fin.toExcept ((sScheme base none (sc ++ 58 :: prepEnd r) {}).andThen env e base none) = _
  unfold sScheme
  rw [takeScheme_any h]
  dsimp only [Option.isSome]
  rw [if_neg (by simp)]
  cases base <;> rfl

/-! ### Slashes -/

theorem slashes_last (s : Str) : ∀ c, (slashes s).getLast? = some c → ∃ d, s.getLast? = some d ∧
    (isC0OrSpace c = isC0OrSpace d) := by
  induction s with
  | nil => intro c h; simp [slashes] at h
  | cons x xs ih =>
    intro c h
    by_cases hq : x = 63 ∨ x = 35
    · rw [slashes_qf hq] at h
      exact ⟨c, h, rfl⟩
    · rw [slashes_cons hq] at h
      cases xs with
      | nil =>
        simp [slashes] at h
        refine ⟨x, rfl, ?_⟩
        rw [← h]
        unfold slashC
        split
        · next hx => subst hx; rfl
        · rfl
      | cons y ys =>
        have hne : slashes (y :: ys) ≠ [] := by
          by_cases hy : y = 63 ∨ y = 35
          · rw [slashes_qf hy]; simp
          · rw [slashes_cons hy]; simp
        rw [List.getLast?_cons_of_ne_nil hne] at h
        obtain ⟨d, hd, he⟩ := ih c h
        exact ⟨d, by rw [List.getLast?_cons_cons]; exact hd, he⟩

theorem slashes_append_plain (a b : Str) (hb : ∀ c ∈ b, c ≠ 92) : slashes (a ++ b) = slashes a ++ b := by
  have h0 : ∀ b : Str, (∀ c ∈ b, c ≠ 92) → slashes b = b := by
    intro b hb
    induction b with
    | nil => rfl
    | cons x xs ih =>
      by_cases hq : x = 63 ∨ x = 35
      · exact slashes_qf hq
      · rw [slashes_cons hq, ih fun c hc => hb c (by simp [hc]), show slashC x = x from if_neg (hb x (by simp))]
  induction a with
  | nil => exact h0 b hb
  | cons x xs ih =>
    by_cases hq : x = 63 ∨ x = 35
    · rw [List.cons_append, slashes_qf hq, slashes_qf hq]; rfl
    · rw [List.cons_append, slashes_cons hq, slashes_cons hq, ih]; rfl

theorem stripRight_split (p : Nat → Bool) (s : Str) : ∃ t, s = stripRight p s ++ t ∧ (∀ c ∈ t, p c = true) ∧
    ∀ c, (stripRight p s).getLast? = some c → p c = false := by
  refine ⟨(s.reverse.takeWhile p).reverse, ?_, ?_, ?_⟩
  · unfold stripRight
    rw [← List.reverse_append, List.takeWhile_append_dropWhile, List.reverse_reverse]
  · intro c hc
    exact takeWhile_mem (List.mem_reverse.1 hc)
  · intro c hc
    unfold stripRight at hc
    rw [List.getLast?_reverse] at hc
    have := List.head?_dropWhile_not p s.reverse
    rw [hc] at this
    simpa using this

theorem stripRight_id {p : Nat → Bool} {s : Str} (h : ∀ c, s.getLast? = some c → p c = false) : stripRight p s = s := by
  unfold stripRight
  rw [dropWhile_none, List.reverse_reverse]
  intro c hc
  rw [List.head?_reverse] at hc
  exact h c hc

theorem removeTab_slashes (s : Str) : removeTabNewline (slashes s) = slashes (removeTabNewline s) := by
  induction s with
  | nil => rfl
  | cons x xs ih =>
    unfold removeTabNewline at *
    by_cases hq : x = 63 ∨ x = 35
    · have h : isTabNewline x = false := by rcases hq with rfl | rfl <;> rfl
      rw [slashes_qf hq]
      simp [h, slashes_qf hq]
    · rw [slashes_cons hq]
      have h : isTabNewline (slashC x) = isTabNewline x := by
        unfold slashC
        split
        · next hx => subst hx; rfl
        · rfl
      cases hx : isTabNewline x with
      | true => simp [h, hx, ih]
      | false => simp [h, hx, ih, slashes_cons hq]

theorem prepEnd_slashes (s : Str) : prepEnd (slashes s) = slashes (prepEnd s) := by
  obtain ⟨t, hs, ht, hl⟩ := stripRight_split isC0OrSpace s
  have h1 : slashes s = slashes (stripRight isC0OrSpace s) ++ t := by
    conv => lhs; rw [hs]
    refine slashes_append_plain _ _ fun c hc => ?_
    rintro rfl
    have := ht _ hc
    revert this; decide
  unfold prepEnd
  rw [h1, stripRight_append_all ht, stripRight_id, removeTab_slashes]
  intro c hc
  obtain ⟨d, hd, he⟩ := slashes_last _ c hc
  rw [he]; exact hl d hd

theorem parse_slashes {env : Env} {e : Encoding} {base : Option Rec} {sc : Str} (h : SchemeText sc)
    (hsp : isSpecialScheme (Spec.toLower sc) = true) (r : Str) :
    (basicParse env (sc ++ 58 :: slashes r) base e).toExcept = (basicParse env (sc ++ 58 :: r) base e).toExcept := by
  rw [parse_scheme h, parse_scheme h, prepEnd_slashes]
  congr 1
  dsimp only
  have hu : ({ scheme := Spec.toLower sc } : Rec).isSpecial = true := hsp
  split
  · exact slash_file env e base _ _
  · next hnf =>
    have hslashes : (SOut.to .specialAuthoritySlashes (slashes (prepEnd r)) { scheme := Spec.toLower sc }).andThen env e
        base none = (SOut.to .specialAuthoritySlashes (prepEnd r) { scheme := Spec.toLower sc }).andThen env e base none := by
      show eval env e base none .specialAuthoritySlashes _ _ = eval env e base none .specialAuthoritySlashes _ _
      rw [authoritySlashes_ignore, authoritySlashes_ignore, slash_ignore _ _ _ hu]
    cases base with
    | none => exact hslashes
    | some b =>
      dsimp only
      split
      · next hb =>
        simp at hb
        show eval env e (some b) none .specialRelativeOrAuthority _ _ =
          eval env e (some b) none .specialRelativeOrAuthority _ _
        rw [relativeOrAuthority_relative env e hu hb hnf, relativeOrAuthority_relative env e hu hb hnf,
          slash_relative]
        show isSpecialScheme b.scheme = true
        rw [hb]; exact hsp
      · exact hslashes

/-! ### The base -/

theorem file_free {env : Env} {e : Encoding} {b : Rec} (hb : b.scheme ≠ u!"file") (r : Str) (url : Rec) :
    eval env e (some b) none .file r url = eval env e none none .file r url := by
  have hpath : ∀ r u, eval env e (some b) none .path r u = eval env e none none .path r u :=
    fun r u => eval_free' env e (some b) none rfl r u
  have hstart : ∀ r u, eval env e (some b) none .pathStart r u = eval env e none none .pathStart r u :=
    fun r u => eval_free' env e (some b) none rfl r u
  have hhost : ∀ r u, eval env e (some b) none .fileHost r u = eval env e none none .fileHost r u := by
    intro r u
    rw [eval_step _ _ _ _ (by decide), eval_step _ _ _ _ (by decide)]
    show (sFileHost env none r u).andThen env e (some b) none = (sFileHost env none r u).andThen env e none none
    unfold sFileHost sFileHostEnd
    split
    · exact hpath _ _
    · split
      · exact hstart _ _
      · split
        · rfl
        · exact hstart _ _
  have hslash : ∀ r u, eval env e (some b) none .fileSlash r u = eval env e none none .fileSlash r u := by
    intro r u
    rw [eval_step _ _ _ _ (by decide), eval_step _ _ _ _ (by decide)]
    show (sFileSlash (some b) r u).andThen env e (some b) none = (sFileSlash none r u).andThen env e none none
    unfold sFileSlash sFileSlashPath
    simp only [if_neg hb]
    cases r with
    | nil => exact hpath _ _
    | cons c cs =>
      dsimp only
      split
      · exact hhost _ _
      · exact hpath _ _
  rw [eval_step _ _ _ _ (by decide), eval_step _ _ _ _ (by decide)]
  show (sFile (some b) r url).andThen env e (some b) none = (sFile none r url).andThen env e none none
  unfold sFile sFilePath
  simp only [if_neg hb]
  cases r with
  | nil => exact hpath _ _
  | cons c cs =>
    dsimp only
    split
    · exact hslash _ _
    · exact hpath _ _

theorem parse_absolute {env : Env} {e : Encoding} {b : Rec} {sc : Str} (h : SchemeText sc)
    (hb : isSpecialScheme (Spec.toLower sc) = false ∨ b.scheme ≠ Spec.toLower sc) (r : Str) :
    (basicParse env (sc ++ 58 :: r) (some b) e).toExcept = (basicParse env (sc ++ 58 :: r) none e).toExcept := by
  rw [parse_scheme h, parse_scheme h]
  congr 1
  dsimp only
  split
  · next hf =>
    refine file_free ?_ _ _
    rcases hb with hb | hb
    · rw [hf] at hb; exact absurd hb (by decide)
    · rw [← hf]; exact hb
  · split
    · next hsp =>
      have hb' : b.scheme ≠ Spec.toLower sc := by
        rcases hb with hb | hb
        · have : isSpecialScheme (Spec.toLower sc) = true := hsp
          rw [hb] at this; cases this
        · exact hb
      rw [if_neg (by simpa using hb'), if_neg (by simp)]
      exact eval_free' env e (some b) none rfl _ _
    · split
      · exact eval_free' env e (some b) none rfl _ _
      · exact eval_free' env e (some b) none rfl _ _

end Urlstd
