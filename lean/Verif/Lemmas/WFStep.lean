/-
Every state of the parser keeps its invariant (no state override).
-/
import Verif.Lemmas.WF

set_option linter.unusedSimpArgs false
set_option linter.unusedVariables false

namespace Urlstd

variable {k : Bool}

open Spec (IsStr)

/-! ### Steps go to suffixes of the input -/

theorem takeWhile_mem {p : Nat → Bool} {s : Str} {x : Nat} (h : x ∈ s.takeWhile p) : p x = true := by
  induction s with
  | nil => simp at h
  | cons c cs ih =>
    rw [List.takeWhile_cons] at h
    split at h
    · rename_i hc
      rcases List.mem_cons.1 h with rfl | h
      · exact hc
      · exact ih h
    · simp at h

theorem splitAtLast_eq {c : Nat} {s a b : Str} (h : splitAtLast c s = some (a, b)) : s = a ++ c :: b := by
  induction s generalizing a b with
  | nil => simp [splitAtLast] at h
  | cons x xs ih =>
    unfold splitAtLast at h
    split at h
    · rename_i a' b' h'
      simp only [Option.some.injEq, Prod.mk.injEq] at h
      obtain ⟨rfl, rfl⟩ := h
      rw [ih h']; rfl
    · split at h
      · rename_i hx
        simp only [Option.some.injEq, Prod.mk.injEq] at h
        obtain ⟨rfl, rfl⟩ := h
        rw [hx]; rfl
      · simp at h

theorem splitAtFirst_eq {c : Nat} {s a b : Str} (h : splitAtFirst c s = some (a, b)) : s = a ++ c :: b := by
  induction s generalizing a b with
  | nil => simp [splitAtFirst] at h
  | cons x xs ih =>
    unfold splitAtFirst at h
    split at h
    · rename_i hx
      simp only [Option.some.injEq, Prod.mk.injEq] at h
      obtain ⟨rfl, rfl⟩ := h
      rw [hx]; rfl
    · simp only [Option.map_eq_some_iff, Prod.mk.injEq] at h
      obtain ⟨p, hp, rfl, rfl⟩ := h
      rw [ih hp]; rfl

theorem hostSpan_append (sp ins : Bool) (s : Str) : (hostSpan sp ins s).1 ++ (hostSpan sp ins s).2 = s := by
  induction s generalizing ins with
  | nil => rfl
  | cons c cs ih =>
    unfold hostSpan
    split
    · rfl
    · dsimp only
      rw [List.cons_append, ih]

theorem hostSpan_suffix (sp ins : Bool) (s : Str) : (hostSpan sp ins s).2 <:+ s :=
  ⟨_, hostSpan_append sp ins s⟩
theorem hostSpan_prefix (sp ins : Bool) (s : Str) : (hostSpan sp ins s).1 <+: s :=
  ⟨_, hostSpan_append sp ins s⟩

theorem takeScheme_some {r b t : Str} (h : takeScheme r = some (b, t)) :
    ∃ c cs, r = (c :: cs) ++ c!":" :: t ∧ isAlpha c = true ∧ (∀ x ∈ cs, isSchemeChar x = true) ∧
      b = lower (c :: cs) := by
  unfold takeScheme at h
  cases r with
  | nil => simp at h
  | cons c cs =>
    dsimp only at h
    split at h
    · simp at h
    · rename_i ha
      have he := List.takeWhile_append_dropWhile (p := isSchemeChar) (l := cs)
      have hall : ∀ x ∈ cs.takeWhile isSchemeChar, isSchemeChar x = true := by
        intro x hx; exact takeWhile_mem hx
      cases hd : cs.dropWhile isSchemeChar with
      | nil => rw [hd] at h; simp at h
      | cons d r =>
        rw [hd] at h
        dsimp only at h
        split at h
        · rename_i hc
          simp only [Option.some.injEq, Prod.mk.injEq] at h
          obtain ⟨rfl, rfl⟩ := h
          subst hc
          refine ⟨c, cs.takeWhile isSchemeChar, ?_, by simpa using ha, hall, rfl⟩
          rw [hd] at he
          rw [List.cons_append, he]
        · simp at h

theorem SchemeOK_lower {c : Nat} {cs : Str} (hc : isAlpha c = true) (hcs : ∀ x ∈ cs, isSchemeChar x = true) :
    SchemeOK (lower (c :: cs)) := by
  refine ⟨lowerC c, cs.map lowerC, rfl, ?_, ?_⟩
  · simp only [isAlpha, Bool.or_eq_true, Bool.and_eq_true, decide_eq_true_eq] at hc
    simp only [lowerC, Bool.and_eq_true, decide_eq_true_eq]
    split <;> omega
  · intro x hx
    obtain ⟨y, hy, rfl⟩ := List.mem_map.1 hx
    have := hcs y hy
    simp only [lowerC, Bool.and_eq_true, decide_eq_true_eq]
    split
    · refine ⟨?_, by omega⟩
      simp only [isSchemeChar, isAlnum, isAlpha, Bool.or_eq_true, Bool.and_eq_true, decide_eq_true_eq]
      omega
    · exact ⟨this, by omega⟩

theorem SchemeOK_file : SchemeOK u!"file" := ⟨102, u!"ile", rfl, by decide, by decide⟩

/-! ### Path segments -/

theorem SegOK_nil (sp : Bool) : SegOK sp [] := ⟨by simp, rfl, rfl⟩

theorem isPathSep_hex {sp : Bool} {x : Nat} (h : x = 37 ∨ isHex x = true) : isPathSep sp x = false := by
  have : x ≠ 47 ∧ x ≠ 92 := by
    rcases h with rfl | h
    · decide
    · rw [isHex_iff] at h; omega
  simp [isPathSep, this.1, this.2]

theorem SegOK_encoded {sp : Bool} {b : Str} (hs : IsStr b) (hb : ∀ c ∈ b, isPathSep sp c = false)
    (h1 : isSingleDot (utf8PercentEncode b safePath) = false) (h2 : isDoubleDot (utf8PercentEncode b safePath) = false) :
    SegOK sp (utf8PercentEncode b safePath) := by
  refine ⟨fun c hc => ?_, h1, h2⟩
  obtain ⟨hsafe, h⟩ := mem_encoded safeSet_path hs hc
  refine ⟨hsafe, ?_⟩
  rcases h with h | h
  · exact hb c h
  · exact isPathSep_hex h

theorem SegsOK_nil (sc : Str) : SegsOK k sc [] := ⟨by simp, by simp⟩

theorem SegsOK.snoc {sc : Str} {p : List Str} (h : SegsOK k sc p) {s : Str} (hs : SegOK (isSpecialScheme sc) s)
    (hd : p = [] → sc = u!"file" → isWindowsDriveLetter s = true → isNormalizedWindowsDriveLetter s = true) :
    SegsOK k sc (p ++ [s]) := by
  refine ⟨fun t ht => ?_, fun hk hf t ht hw => ?_⟩
  · rcases List.mem_append.1 ht with ht | ht
    · exact h.segs t ht
    · simp at ht; subst ht; exact hs
  · cases p with
    | nil => simp at ht; subst ht; exact hd rfl hf hw
    | cons a b => exact h.drive hk hf t (by simpa using ht) hw

theorem SegsOK.dropLast {sc : Str} {p : List Str} (h : SegsOK k sc p) : SegsOK k sc p.dropLast := by
  refine ⟨fun t ht => h.segs t (List.dropLast_subset p ht), fun hk hf t ht => ?_⟩
  apply h.drive hk hf t
  cases p with
  | nil => simp at ht
  | cons a b =>
    cases b with
    | nil => simp at ht
    | cons b c => simpa using ht

theorem SegsOK.shorten {sc : Str} {p : List Str} (h : SegsOK k sc p) : SegsOK k sc (shortenPath sc p) := by
  unfold shortenPath
  split
  · exact SegsOK_nil sc
  · split
    · exact h
    · exact SegsOK_nil sc
  · exact h.dropLast

theorem isWindowsDriveLetter_nil : isWindowsDriveLetter [] = false := rfl

theorem drive_normalized {b : Str} (h : isWindowsDriveLetter b = true) :
    ∃ a, isAlpha a = true ∧ b.headD 0 = a ∧ isNormalizedWindowsDriveLetter [a, 58] = true := by
  match b, h with
  | [a, x], h =>
    simp only [isWindowsDriveLetter, Bool.and_eq_true] at h
    refine ⟨a, h.1, rfl, ?_⟩
    simp [isNormalizedWindowsDriveLetter, isWindowsDriveLetter, h.1]

theorem SegOK_drive {sp : Bool} {a : Nat} (ha : isAlpha a = true) : SegOK sp [a, 58] := by
  simp only [isAlpha, Bool.or_eq_true, Bool.and_eq_true, decide_eq_true_eq] at ha
  refine ⟨fun c hc => ?_, ?_, ?_⟩
  · simp only [List.mem_cons, List.not_mem_nil, or_false] at hc
    rcases hc with rfl | rfl
    · refine ⟨safeSet_path.always _ ?_, ?_⟩
      · simp only [alwaysSafe, isAlnum, isAlpha, Bool.or_eq_true, Bool.and_eq_true, decide_eq_true_eq]; omega
      · have : c ≠ 47 ∧ c ≠ 92 := by omega
        simp [isPathSep, this.1, this.2]
    · exact ⟨by decide, by cases sp <;> decide⟩
  · simp [isSingleDot]
  · simp [isDoubleDot]

theorem SegsOK.addSegment {sc : Str} {p : List Str} (h : SegsOK k sc p) {b : Str} (hs : IsStr b)
    (hb : ∀ c ∈ b, isPathSep (isSpecialScheme sc) c = false) (slash : Bool) :
    SegsOK k sc (addSegment sc p b slash) := by
  have hnil : ∀ {q}, SegsOK k sc q → SegsOK k sc (q ++ [[]]) := fun hq =>
    hq.snoc (SegOK_nil _) (fun _ _ hw => by simp [isWindowsDriveLetter] at hw)
  unfold Urlstd.addSegment
  dsimp only
  split
  · split
    · exact h.shorten
    · exact hnil h.shorten
  · rename_i h2
    split
    · split
      · exact h
      · exact hnil h
    · rename_i h1
      have hseg := SegOK_encoded hs hb (by simpa using h1) (by simpa using h2)
      split
      · rename_i hw
        simp only [Bool.and_eq_true] at hw
        obtain ⟨a, ha, he, hn⟩ := drive_normalized hw.2
        rw [he]
        exact h.snoc (SegOK_drive ha) (fun _ _ _ => hn)
      · rename_i hw
        refine h.snoc hseg (fun h0 hf hw' => ?_)
        subst h0
        simp [hf, hw'] at hw

theorem addSegment_ne_nil (sc : Str) (p : List Str) (b : Str) : addSegment sc p b false ≠ [] := by
  unfold addSegment
  dsimp only
  split
  · simp
  · split
    · simp
    · split <;> simp

theorem pathPieces_chars (sp : Bool) (s : Str) :
    ∀ b ∈ pathPieces sp s, ∀ c ∈ b, c ∈ s ∧ isPathSep sp c = false := by
  induction s with
  | nil => intro b hb; simp [pathPieces] at hb; subst hb; simp
  | cons x xs ih =>
    intro b hb c hc
    by_cases hx : isPathSep sp x = true
    · rw [pathPieces_sep hx] at hb
      rcases List.mem_cons.1 hb with rfl | hb
      · simp at hc
      · have := ih b hb c hc; exact ⟨by simp [this.1], this.2⟩
    · unfold pathPieces at hb
      rw [if_neg hx] at hb
      cases hp : pathPieces sp xs with
      | nil => exact absurd hp (pathPieces_ne_nil sp xs)
      | cons p ps =>
        rw [hp] at hb
        dsimp only at hb
        rcases List.mem_cons.1 hb with rfl | hb
        · rcases List.mem_cons.1 hc with rfl | hc
          · exact ⟨by simp, by simpa using hx⟩
          · have := ih p (by simp [hp]) c hc; exact ⟨by simp [this.1], this.2⟩
        · have := ih b (by simp [hp, hb]) c hc; exact ⟨by simp [this.1], this.2⟩

theorem SegsOK.addPieces {sc : Str} (ps : List Str) : ∀ {p : List Str}, SegsOK k sc p →
    (∀ b ∈ ps, IsStr b ∧ ∀ c ∈ b, isPathSep (isSpecialScheme sc) c = false) → SegsOK k sc (addPieces sc p ps) := by
  induction ps with
  | nil => intro p h _; exact h
  | cons b ps ih =>
    intro p h hb
    cases ps with
    | nil => exact h.addSegment (hb b (by simp)).1 (hb b (by simp)).2 false
    | cons b' ps =>
      exact ih (h.addSegment (hb b (by simp)).1 (hb b (by simp)).2 true) (fun x hx => hb x (by simp [hx]))

theorem addPieces_ne_nil {sc : Str} (ps : List Str) : ∀ {p : List Str}, ps ≠ [] → addPieces sc p ps ≠ [] := by
  induction ps with
  | nil => intro p h; exact absurd rfl h
  | cons b ps ih =>
    intro p _
    cases ps with
    | nil => exact addSegment_ne_nil sc p b
    | cons b' ps => exact ih (by simp)

/-- the path state on a text -/
theorem SegsOK.pathState {sc : Str} {p : List Str} (h : SegsOK k sc p) {t : Str} (ht : IsStr t) :
    SegsOK k sc (Urlstd.addPieces sc p (pathPieces (isSpecialScheme sc) t)) ∧
      Urlstd.addPieces sc p (pathPieces (isSpecialScheme sc) t) ≠ [] := by
  refine ⟨h.addPieces _ ?_, addPieces_ne_nil _ (pathPieces_ne_nil _ _)⟩
  intro b hb
  have := pathPieces_chars _ t b hb
  exact ⟨fun c hc => ht c (this c hc).1, fun c hc => (this c hc).2⟩

end Urlstd
