/-
C107: which texts are valid URL schemes for `URLValidator.is_valid_url_scheme`.
-/
import Verif.Props.Validity
import Verif.Props.Parsed
import Verif.Spec.Reference

namespace Urlstd.Props

open Spec (SchemeText HasScheme)

/-- the Kelvin sign, whose lower case is the letter "k" -/
def kelvin : Nat := 0x212A

/-- a character in lower case, the Kelvin sign being a letter K -/
def lowerK (c : Nat) : Nat := if c = kelvin then c!"k" else if c!"A" ≤ c ∧ c ≤ c!"Z" then c + 32 else c

/-- What `str.lower` does with texts that are not ASCII, as far as it matters here: the Kelvin sign is the only other character that
becomes ASCII. (This is so in every version of the Unicode data that CPython has been released with.) -/
structure LowerOK (env : Env) : Prop where
  kelvin : ∀ s, (∀ c ∈ s, c < 128 ∨ c = kelvin) → env.uniLower s = s.map lowerK
  other : ∀ s, (∃ c ∈ s, ¬ (c < 128 ∨ c = Props.kelvin)) → ∃ c ∈ env.uniLower s, 128 ≤ c

/-- the registry contains schemes in lower case (`REGISTERED_SCHEMES`, parse.py:146-153) -/
def RegistryOK (env : Env) : Prop := ∀ r ∈ env.registered, SchemeText r

/-- C107 for every text: it is accepted exactly if it is not empty and what `str.lower` makes of it is registered. -/
theorem C107_lower (env : Env) (value : Str) : ∃ b, (isValidUrlScheme env value).res = .ok b ∧
    (b = true ↔ (if ∀ c ∈ value, c < 128 then value.map (fun c => if c!"A" ≤ c ∧ c ≤ c!"Z" then c + 32 else c) else env.uniLower value)
      ∈ env.registered.filter (· ≠ [])) := by
  have e : pyLower env value = if ∀ c ∈ value, c < 128 then value.map (fun c => if c!"A" ≤ c ∧ c ≤ c!"Z" then c + 32 else c)
      else env.uniLower value := by
    unfold pyLower
    by_cases h : ∀ c ∈ value, c < 128
    · rw [if_pos h, if_pos (by simpa using h)]
      unfold lower
      refine List.map_congr_left fun c _ => ?_
      unfold lowerC
      simp
    · rw [if_neg h, if_neg (by simpa using h)]
  rw [← e]
  unfold isValidUrlScheme
  dsimp only
  split
  · next h => exact ⟨true, rfl, by simpa [and_comm] using h⟩
  · next h =>
    refine ⟨false, rfl, ?_⟩
    simp only [Bool.false_eq_true, false_iff]
    intro hm
    apply h
    simpa [and_comm] using hm

private theorem schemeText_ascii {s : Str} (h : SchemeText s) : ∀ c ∈ s, c < 128 := by
  obtain ⟨l, ls, rfl, k1, k2⟩ := h
  intro c hc
  have : Spec.Letter c ∨ Spec.Digit c ∨ c = c!"+" ∨ c = c!"-" ∨ c = c!"." := by
    rcases List.mem_cons.1 hc with rfl | hc
    · exact .inl k1
    · exact k2 c hc
  unfold Spec.Letter Spec.Digit at this
  omega

private theorem scheme_ne {s : Str} (h : SchemeText s) : s ≠ [] := by
  obtain ⟨l, ls, rfl, -, -⟩ := h
  simp

/-- C107, exactly: the accepted texts are the registered schemes, in any case of their letters, where the Kelvin sign (U+212A) counts as
a letter K. -/
theorem C107_exact (env : Env) (hl : LowerOK env) (hr : RegistryOK env) (value : Str) :
    (isValidUrlScheme env value).res = .ok true ↔ value.map lowerK ∈ env.registered := by
  obtain ⟨b, hb, hiff⟩ := C107_lower env value
  rw [hb]
  have : (Except.ok b : Except Err Bool) = .ok true ↔ b = true := by simp
  rw [this, hiff]
  have hfil : ∀ r, r ∈ env.registered.filter (· ≠ []) ↔ r ∈ env.registered := by
    intro r
    simp only [List.mem_filter, decide_eq_true_eq, ne_eq, and_iff_left_iff_imp]
    exact fun h => scheme_ne (hr r h)
  rw [hfil]
  by_cases h : ∀ c ∈ value, c < 128
  · rw [if_pos h]
    have : value.map (fun c => if c!"A" ≤ c ∧ c ≤ c!"Z" then c + 32 else c) = value.map lowerK := by
      refine List.map_congr_left fun c hc => ?_
      have := h c hc
      unfold lowerK
      rw [if_neg (show ¬ c = kelvin by unfold kelvin; omega)]
    rw [this]
  · rw [if_neg h]
    by_cases hk : ∀ c ∈ value, c < 128 ∨ c = kelvin
    · rw [hl.kelvin value hk]
    · have hk' : ∃ c ∈ value, ¬ (c < 128 ∨ c = kelvin) := by
        simpa only [Classical.not_forall, exists_prop] using hk
      constructor
      · intro hm
        obtain ⟨c, hc, hc'⟩ := hl.other value hk'
        have := schemeText_ascii (hr _ hm) c hc
        omega
      · intro hm
        obtain ⟨c, hc, hc'⟩ := hk'
        have h2 := schemeText_ascii (hr _ hm) (lowerK c) (List.mem_map.2 ⟨c, hc, rfl⟩)
        unfold lowerK at h2
        rw [if_neg (fun h => hc' (.inr h))] at h2
        split at h2 <;> omega

/-- C107 as far as it is true: an accepted text without the Kelvin sign is a URL scheme, so a text that begins with it and ":" is read
with that scheme. -/
theorem C107_scheme_partial (env : Env) (hl : LowerOK env) (hr : RegistryOK env) (value : Str) (hk : kelvin ∉ value)
    (h : (isValidUrlScheme env value).res = .ok true) : SchemeText value := by
  have hm := (C107_exact env hl hr value).1 h
  obtain ⟨l, ls, e, k1, k2⟩ := hr _ hm
  cases value with
  | nil => simp at e
  | cons c cs =>
    rw [List.map_cons] at e
    injection e with e1 e2
    refine ⟨c, cs, rfl, ?_, fun a ha => ?_⟩
    · have : c ≠ kelvin := fun hc => hk (by simp [hc])
      rw [← e1] at k1
      unfold lowerK at k1
      rw [if_neg this] at k1
      unfold Spec.Letter at k1 ⊢
      split at k1 <;> omega
    · have : a ≠ kelvin := fun hc => hk (by simp [← hc, ha])
      have k := k2 (lowerK a) (by rw [← e2]; exact List.mem_map.2 ⟨a, ha, rfl⟩)
      unfold lowerK at k
      rw [if_neg this] at k
      unfold Spec.Letter Spec.Digit at k ⊢
      split at k <;> omega

/-- an interpreter with the lower case of the Kelvin sign, and a registry with "skype" -/
def exKelvin : Env := { exEnv with uniLower := fun s => s.map lowerK, registered := [u!"http", u!"skype"] }

theorem exKelvin_lower : LowerOK exKelvin := by
  refine ⟨fun s _ => rfl, ?_⟩
  rintro s ⟨c, hc, h⟩
  refine ⟨lowerK c, List.mem_map.2 ⟨c, hc, rfl⟩, ?_⟩
  unfold lowerK
  rw [if_neg (fun e => h (.inr e))]
  split <;> omega

theorem exKelvin_registry : RegistryOK exKelvin := by
  intro r hr
  have : r = u!"http" ∨ r = u!"skype" := by simpa [exKelvin] using hr
  rcases this with rfl | rfl
  · exact ⟨c!"h", u!"ttp", rfl, by decide, by decide⟩
  · exact ⟨c!"s", u!"kype", rfl, by decide, by decide⟩

example : (isValidUrlScheme exKelvin u!"SKYpe").res = .ok true :=
  (C107_exact exKelvin exKelvin_lower exKelvin_registry _).2 (by decide)

example : SchemeText u!"SKYpe" :=
  C107_scheme_partial exKelvin exKelvin_lower exKelvin_registry _ (by decide) (by decide +kernel)

example : ¬ (isValidUrlScheme exKelvin u!"skypé").res = .ok true := by
  rw [C107_exact exKelvin exKelvin_lower exKelvin_registry]; decide

/-- C107 is false: "sKype" is a valid scheme for the validator, but it is not a URL scheme, and the parser refuses a URL that
begins with it. -/
theorem C107_false : (isValidUrlScheme exKelvin (u!"s" ++ [kelvin] ++ u!"ype")).res = .ok true ∧
    ¬ SchemeText (u!"s" ++ [kelvin] ++ u!"ype") ∧ (parseUrl exKelvin (u!"s" ++ [kelvin] ++ u!"ype:a")).res = .error .urlParse := by
  refine ⟨by decide +kernel, fun h => ?_, by decide +kernel⟩
  exact absurd (schemeText_ascii h kelvin (by decide)) (by decide)

/-- The verdict of `URLValidator.is_valid` does not suffer: for the scheme of a URL that the parser returns, the answer is whether it is
registered, whatever `str.lower` does. -/
theorem C107_is_valid (env : Env) (u : Rec) (h : Parsed env u) :
    (isValidUrlScheme env u.scheme).res = .ok true ↔ u.scheme ∈ env.registered := by
  obtain ⟨l, ls, e, k1, k2⟩ := C22_scheme_normalized env u h
  have hc : ∀ c ∈ u.scheme, c < 128 ∧ ¬ (c!"A" ≤ c ∧ c ≤ c!"Z") := by
    intro c hc
    have : Spec.LowerAlpha c ∨ Spec.Digit c ∨ c = c!"+" ∨ c = c!"-" ∨ c = c!"." := by
      rw [e] at hc
      rcases List.mem_cons.1 hc with rfl | hc
      · exact .inl k1
      · exact k2 c hc
    unfold Spec.LowerAlpha Spec.Digit at this
    omega
  obtain ⟨b, hb, -, hiff⟩ := C60_scheme env u.scheme fun c h => (hc c h).1
  have hid : u.scheme.map (fun c => if c!"A" ≤ c ∧ c ≤ c!"Z" then c + 32 else c) = u.scheme := by
    conv => rhs; rw [← List.map_id u.scheme]
    refine List.map_congr_left fun c h => ?_
    rw [if_neg (hc c h).2]
    rfl
  rw [hid] at hiff
  have : (Except.ok b : Except Err Bool) = .ok true ↔ b = true := by simp
  rw [hb, this, hiff]
  exact and_iff_right (by rw [e]; simp)

example : (isValidUrlScheme exEnv exRecord.scheme).res = .ok true :=
  (C107_is_valid exEnv exRecord exRecord_parsed).2 (by decide)

end Urlstd.Props
