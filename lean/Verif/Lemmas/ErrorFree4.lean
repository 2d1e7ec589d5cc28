/-
Runs of the parser without a validation error, in both directions: the scheme, and the whole parse.
-/
import Verif.Lemmas.ErrorFree3
import Verif.Lemmas.Reference

set_option linter.unusedSimpArgs false
set_option linter.unusedVariables false

namespace Urlstd

open Spec (URLUnits PathText AuthorityText FileAuthority HierarchicalText BehindSlashes ErrorFreeAbsolute ErrorFreeRelative ErrorFree
  Untouched HasScheme SchemeText)

section
variable {env : Env} {e : Encoding} {s : Str} {base : Option Rec}

theorem quiet_noScheme {i : Nat} {url : Rec} {t : Str} (hd : s.drop i = t) {segs : List Str} (hu : url.path = .list segs)
    (hn : ¬ HasScheme t) : Quiet env e s base .noScheme i url ↔
      ∃ b, base = some b ∧ ErrorFreeRelative (HostSilent env) (DigitsOK env) b t := by
  cases base with
  | none =>
    refine ⟨fun hq => absurd hq (quiet_fail (by decide) hd rfl), ?_⟩
    rintro ⟨b, h, -⟩
    cases h
  | some b =>
    have hone : (∃ b', some b = some b' ∧ ErrorFreeRelative (HostSilent env) (DigitsOK env) b' t) ↔
        ErrorFreeRelative (HostSilent env) (DigitsOK env) b t :=
      ⟨by rintro ⟨b', h, hh⟩; cases h; exact hh, fun h => ⟨b, rfl, h⟩⟩
    rw [hone]
    have hs0 : sstep env e (some b) none .noScheme t url = sNoScheme (some b) t url := rfl
    unfold sNoScheme at hs0
    dsimp only at hs0
    have hl0 : (step env e s (some b) none .noScheme i url).log = (parseNoScheme s i (some b) url).log := rfl
    unfold parseNoScheme at hl0
    dsimp only at hl0
    rw [hd] at hl0
    unfold ErrorFreeRelative
    cases hp : b.path with
    | «opaque» x =>
      have ho : b.hasOpaquePath = true := by unfold Rec.hasOpaquePath; rw [hp]
      rw [ho] at hs0 hl0
      dsimp only
      by_cases h : t.head? = some c!"#"
      · cases t with
        | nil => cases h
        | cons c t =>
          cases h
          rw [if_neg (by simp), if_pos rfl] at hs0 hl0
          rw [quiet_via hd hs0 (fun j hj => quiet_fragment hj (by simp)), hl0]
          simp [Out.to]
      · rw [if_pos (by simpa using h)] at hs0
        refine ⟨fun hq => absurd hq (quiet_fail (by decide) hd hs0), ?_⟩
        rintro ⟨f, rfl, -⟩
        exact absurd rfl h
    | list l =>
      have ho : b.hasOpaquePath = false := by unfold Rec.hasOpaquePath; rw [hp]
      rw [ho, if_neg (by simp), if_neg (by simp)] at hs0 hl0
      dsimp only
      unfold HierarchicalText
      by_cases hf : b.scheme = u!"file"
      · rw [if_neg (by simpa using hf)] at hs0 hl0
        have hB : ∀ r, BehindSlashes (HostSilent env) (DigitsOK env) b.scheme r ↔ FileAuthority (HostSilent env) r := by
          intro r; unfold BehindSlashes; rw [if_pos hf]
        simp only [hB]
        rw [← slashThen_twice]
        have hl : (step env e s (some b) none .noScheme i url).log = [] := hl0
        by_cases h1 : t.head? = some c!"/"
        · cases t with
          | nil => cases h1
          | cons c t =>
            cases h1
            rw [quiet_via hd hs0 (fun j hj => quiet_file_slash hj hu), hl, slashThen_cons]
            simp
        · rw [quiet_via hd hs0 (fun j hj => quiet_file_other hf hp hj hn h1), hl, slashThen_other h1]
          simp
      · rw [if_pos hf] at hs0 hl0
        have hB : ∀ r, BehindSlashes (HostSilent env) (DigitsOK env) b.scheme r ↔
            AuthorityText (HostSilent env) (DigitsOK env) b.isSpecial r := by
          intro r
          unfold BehindSlashes
          rw [if_neg hf, isSpecial_eq]
          rfl
        simp only [hB]
        rw [← slashThen_twice, quiet_via hd hs0 (fun j hj => quiet_relative hf hp hj hu), hl0]
        simp [Out.to]

theorem parseScheme_scheme {i : Nat} {url : Rec} {sc rest : Str} (hsc : SchemeText sc) (hd : s.drop i = sc ++ c!":" :: rest) :
    ∃ j, s.drop j = rest ∧ parseScheme s i base url none =
      (let url : Rec := { url with scheme := Spec.toLower sc }
        if url.scheme = u!"file" then
          Out.to .file j url (if rest.take 2 = u!"//" then [] else [.ev .specialSchemeMissingFollowingSolidus])
        else if url.isSpecial then
          if (match base with | some b => b.scheme == url.scheme | none => false) then
            Out.to .specialRelativeOrAuthority j url
          else .to .specialAuthoritySlashes j url
        else if rest.head? = some c!"/" then Out.to .pathOrAuthority (j + 1) url
        else .to .opaquePath j { url with path := .opaque [] }) := by
  obtain ⟨c, cs, rfl, hc, hcs⟩ := hsc
  have hd2 : s.drop (i + 1 + cs.length + 1) = rest := by
    rw [List.cons_append] at hd
    exact drop_after (drop_behind (drop_after hd))
  refine ⟨_, hd2, ?_⟩
  unfold parseScheme
  dsimp only
  rw [hd, List.cons_append]
  dsimp only
  rw [if_neg (by rw [isAlpha_iff.2 hc]; simp), schemeScan_some cs rest _ _ (fun x hx => (schemeChar_iff x).2 (hcs x hx))]
  dsimp only
  rw [if_neg (by simp), hd2, ← toLower_eq_lower, List.cons_append, List.nil_append]
  cases base <;> rfl

/-- a step that is known as a whole -/
theorem quiet_to {st st' : PState} (hst : st ≠ .eof) {i j : Nat} {url url' : Rec} {l : Log}
    (h : step env e s base none st i url = .to st' j url' l) :
    Quiet env e s base st i url ↔ l = [] ∧ Quiet env e s base st' j url' := by
  constructor
  · intro hq
    cases hq with
    | eof => exact absurd rfl hst
    | next h1 h2 =>
      rw [h1] at h
      cases h
      exact ⟨rfl, h2⟩
  · rintro ⟨rfl, hq⟩
    exact .next h hq

theorem prefix_take {t : Str} : u!"//" <+: t ↔ t.take 2 = u!"//" := by
  constructor
  · rintro ⟨r, rfl⟩; rfl
  · intro h
    exact ⟨t.drop 2, by rw [← h]; exact List.take_append_drop 2 t⟩

theorem hier_prefix {A : Str → Prop} {t : Str} :
    (((∃ r, t = u!"//" ++ r ∧ A r) ∨ (¬ u!"//" <+: t ∧ PathText t)) ∧ u!"//" <+: t) ↔ ∃ r, t = u!"//" ++ r ∧ A r := by
  constructor
  · rintro ⟨h | h, hp⟩
    · exact h
    · exact absurd hp h.1
  · rintro ⟨r, rfl, hA⟩
    exact ⟨.inl ⟨r, rfl, hA⟩, ⟨r, rfl⟩⟩

theorem quiet_scheme {i : Nat} {url : Rec} {sc rest : Str} (hsc : SchemeText sc) (hd : s.drop i = sc ++ c!":" :: rest)
    {segs : List Str} (hu : url.path = .list segs) : Quiet env e s base .schemeStart i url ↔
      HierarchicalText (HostSilent env) (DigitsOK env) (Spec.toLower sc) rest ∧ (Spec.isSpecial (Spec.toLower sc) = true → u!"//" <+: rest) := by
  obtain ⟨j, hj, hst⟩ := parseScheme_scheme (base := base) (url := url) hsc hd
  change step env e s base none .schemeStart i url = _ at hst
  dsimp only at hst
  have hspc : Rec.isSpecial { url with scheme := Spec.toLower sc } = Spec.isSpecial (Spec.toLower sc) := by
    rw [isSpecial_eq]
    rfl
  rw [hspc] at hst
  have hu' : Rec.path { url with scheme := Spec.toLower sc } = .list segs := hu
  unfold HierarchicalText BehindSlashes
  by_cases hf : Spec.toLower sc = u!"file"
  · rw [if_pos hf] at hst
    have hsp : Spec.isSpecial (Spec.toLower sc) = true := by rw [hf]; decide
    simp only [hsp, if_pos hf, true_implies]
    rw [hier_prefix, quiet_to (by decide) hst]
    by_cases h2 : rest.take 2 = u!"//"
    · obtain ⟨r, rfl⟩ := prefix_take.2 h2
      rw [if_pos h2]
      refine (and_congr_right fun _ => quiet_file_slash (r := c!"/" :: r) hj hu').trans ?_
      rw [slashThen_cons]
      constructor
      · rintro ⟨-, h⟩; exact ⟨r, rfl, h⟩
      · rintro ⟨r', h, hA⟩
        cases h
        exact ⟨rfl, hA⟩
    · rw [if_neg h2]
      refine ⟨fun h => (by cases h.1), ?_⟩
      rintro ⟨r, rfl, -⟩
      exact absurd rfl h2
  · rw [if_neg hf] at hst
    simp only [if_neg hf]
    by_cases hsp : Spec.isSpecial (Spec.toLower sc) = true
    · rw [if_pos hsp] at hst
      simp only [hsp, true_implies]
      rw [hier_prefix]
      have hst' : ∃ st', (st' = .specialRelativeOrAuthority ∨ st' = .specialAuthoritySlashes) ∧
          step env e s base none .schemeStart i url = .to st' j { url with scheme := Spec.toLower sc } := by
        rw [hst]
        clear hst
        cases base with
        | none => exact ⟨_, .inr rfl, if_neg (by simp)⟩
        | some b =>
          by_cases hb : (b.scheme == Spec.toLower sc) = true
          · exact ⟨_, .inl rfl, if_pos hb⟩
          · exact ⟨_, .inr rfl, if_neg hb⟩
      obtain ⟨st', h1, h2⟩ := hst'
      rw [quiet_to (by decide) h2, quiet_special h1 hj hu' (by rw [hspc]; exact hsp)]
      simp
    · rw [if_neg hsp] at hst
      have hsp' : Spec.isSpecial (Spec.toLower sc) = false := by simpa using hsp
      have htriv : (Spec.isSpecial (Spec.toLower sc) = true → u!"//" <+: rest) ↔ True := ⟨fun _ => trivial, fun _ h => absurd h hsp⟩
      rw [htriv, and_true, ← slashThen_twice]
      by_cases h1 : rest.head? = some c!"/"
      · rw [if_pos h1] at hst
        cases rest with
        | nil => cases h1
        | cons c r =>
          cases h1
          rw [slashThen_cons, quiet_to (by decide) hst, quiet_pathOrAuthority (drop_after hj) hu', hspc]
          simp
      · rw [if_neg h1] at hst
        rw [slashThen_other h1, quiet_to (by decide) hst, quiet_opaque hj]
        simp

theorem quiet_without_scheme {i : Nat} {url : Rec} {t : Str} (hd : s.drop i = t) (hn : ¬ HasScheme t) :
    Quiet env e s base .schemeStart i url ↔ Quiet env e s base .noScheme i url := by
  have hst : step env e s base none .schemeStart i url = .to .noScheme i url := by
    show parseScheme s i base url none = _
    unfold parseScheme
    dsimp only
    rw [hd]
    cases t with
    | nil => rfl
    | cons c cs =>
      dsimp only
      by_cases ha : isAlpha c = true
      · rw [if_neg (by simp [ha]), schemeScan_none]
        · rfl
        · intro a r hr hall
          refine hn ⟨c :: a, r, ⟨c, a, rfl, isAlpha_iff.1 ha, fun x hx => (schemeChar_iff x).1 (hall x hx)⟩, ?_⟩
          rw [hr]
          simp
      · rw [if_pos (by simp [ha])]
        rfl
  rw [quiet_to (by decide) hst]
  simp

theorem schemeText_unique {a b r t : Str} (ha : SchemeText a) (hb : SchemeText b) (h : a ++ c!":" :: r = b ++ c!":" :: t) :
    Spec.toLower a = Spec.toLower b ∧ r = t := by
  have h1 := takeScheme_any ha r
  have h2 := takeScheme_any hb t
  change takeScheme (a ++ c!":" :: r) = _ at h1
  rw [h] at h1
  change takeScheme (b ++ c!":" :: t) = _ at h2
  rw [h1] at h2
  rw [Option.some.injEq, Prod.mk.injEq] at h2
  exact h2

/-- the whole run, on a text of which nothing is removed -/
theorem quiet_start : Quiet env e s base .schemeStart 0 {} ↔
    ErrorFreeAbsolute (HostSilent env) (DigitsOK env) s ∨
      ¬ HasScheme s ∧ ∃ b, base = some b ∧ ErrorFreeRelative (HostSilent env) (DigitsOK env) b s := by
  by_cases h : HasScheme s
  · obtain ⟨sc, rest, hsc, hs⟩ := h
    have hs : s = sc ++ c!":" :: rest := by simpa using hs
    rw [quiet_scheme (segs := []) hsc (by simpa using hs) rfl]
    constructor
    · intro hh
      exact .inl ⟨sc, rest, hsc, hs, hh⟩
    · rintro (⟨sc', rest', hsc', hs', hh⟩ | ⟨hn, -⟩)
      · obtain ⟨h1, rfl⟩ := schemeText_unique hsc hsc' (hs.symm.trans hs')
        rw [h1]
        exact hh
      · exact absurd ⟨sc, rest, hsc, by simpa using hs⟩ hn
  · rw [quiet_without_scheme (t := s) rfl h, quiet_noScheme (segs := []) (t := s) rfl rfl h]
    constructor
    · exact fun hh => .inr ⟨h, hh⟩
    · rintro (⟨sc', rest', hsc', hs', hh⟩ | ⟨-, hh⟩)
      · exact absurd ⟨sc', rest', hsc', by simpa using hs'⟩ h
      · exact hh

theorem untouched_iff (s : Str) : Untouched s ↔ stripBoth isC0OrSpace s = s ∧ s.any isTabNewline = false := by
  have h1 : ∀ c, isC0OrSpace c = false ↔ 0x20 < c := by
    intro c
    unfold isC0OrSpace
    simp
  have h2 : ∀ c, isTabNewline c = false ↔ (c ≠ 9 ∧ c ≠ 10 ∧ c ≠ 13) := by
    intro c
    unfold isTabNewline
    simp
    grind
  rw [stripBoth_self, List.any_eq_false]
  unfold Untouched
  simp only [h1, Bool.not_eq_true, h2, Option.mem_def, and_assoc]

theorem initLog_untouched (s : Str) : initLog s none = [] ↔ Untouched s := by
  rw [untouched_iff]
  unfold initLog
  dsimp only
  by_cases h1 : stripBoth isC0OrSpace s = s
  · rw [h1]
    cases h2 : s.any isTabNewline <;> simp
  · simp [h1]
    try (split <;> simp)

theorem prepared_untouched {s : Str} (h : Untouched s) : prepared s none = s := by
  obtain ⟨h1, h2⟩ := (untouched_iff s).1 h
  show removeTabNewline (stripBoth isC0OrSpace s) = s
  rw [h1]
  unfold removeTabNewline
  rw [List.filter_eq_self]
  intro c hc
  rw [List.any_eq_false] at h2
  simpa using h2 c hc

theorem basicParse_quiet : (∃ u, basicParse env s base e = ⟨.ok (), u, []⟩) ↔
    ErrorFree (HostSilent env) (DigitsOK env) base s := by
  rw [basicParse_run]
  unfold ErrorFree
  by_cases h : Untouched s
  · rw [prepared_untouched h, (initLog_untouched s).2 h]
    show (∃ u, run env e s base none maxSteps .schemeStart 0 {} [] = _) ↔ _
    rw [run_quiet maxSteps .schemeStart 0 {} (by decide), quiet_start]
    simp [h]
  · refine ⟨?_, fun hh => absurd hh.1 h⟩
    rintro ⟨u, hu⟩
    exfalso
    refine run_log_ne maxSteps (env := env) (e := e) (s := prepared s none) (base := base) .schemeStart 0 {} (initLog s none)
      (fun h' => h ((initLog_untouched s).1 h')) ?_
    have := congrArg ParseOut.log hu
    exact this

end

end Urlstd
