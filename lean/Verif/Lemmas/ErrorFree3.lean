/-
Runs of the parser without a validation error, in both directions: the states that decide what kind of reference the input
is, and the whole parse.
-/
import Verif.Lemmas.ErrorFree2
import Verif.Lemmas.Writing4

set_option linter.unusedSimpArgs false
set_option linter.unusedVariables false

namespace Urlstd

open Spec (URLUnits QueryPart FragmentPart PathText PathBehind PortString OpenBracket HostSpan AuthorityText FileAuthority DriveLetter
  HierarchicalText BehindSlashes ErrorFreeAbsolute ErrorFreeRelative ErrorFree Untouched HasScheme SchemeText)

section
variable {env : Env} {e : Encoding} {s : Str} {base : Option Rec}

/-! ### Files -/

theorem fileHostLoop_end (t : Str) : ∀ (i : Nat) (buf : Str) (url : Rec), ∃ j,
    fileHostLoop env false t i buf url = fileHostEnd env false j (buf ++ t.takeWhile notFileHostEnd) url := by
  induction t with
  | nil => intro i buf url; exact ⟨i, by simp [fileHostLoop]⟩
  | cons c t ih =>
    intro i buf url
    unfold fileHostLoop
    rw [List.takeWhile_cons]
    by_cases hc : notFileHostEnd c = true
    · rw [if_neg (by simpa [notFileHostEnd] using hc), if_pos hc]
      obtain ⟨j, hj⟩ := ih (i + 1) (buf ++ [c]) url
      exact ⟨j, by rw [hj, List.append_assoc]; rfl⟩
    · rw [if_pos (by simp [notFileHostEnd] at hc; grind), if_neg hc]
      exact ⟨i, by rw [List.append_nil]⟩

theorem driveLetter_iff (h : Str) : isWindowsDriveLetter h = true ↔ DriveLetter h := by
  constructor
  · intro hw
    obtain ⟨a, b, rfl, ha, hb⟩ := drive_shape hw
    exact ⟨a, b, rfl, isAlpha_iff.1 ha, hb⟩
  · rintro ⟨a, b, rfl, ha, hb⟩
    unfold isWindowsDriveLetter
    dsimp only
    rw [isAlpha_iff.2 ha]
    rcases hb with rfl | rfl <;> rfl

theorem fileAuthority_iff (t : Str) : FileAuthority (HostSilent env) t ↔
    (t.takeWhile notFileHostEnd = [] ∨ HostSilent env true (t.takeWhile notFileHostEnd)) ∧
      ¬ DriveLetter (t.takeWhile notFileHostEnd) ∧ PathText (t.dropWhile notFileHostEnd) := by
  have hE : ∀ c, notFileHostEnd c = true ↔ c ∉ u!"/?#\\" := by
    intro c
    simp only [notFileHostEnd, List.mem_cons, List.not_mem_nil, or_false, not_or, Bool.not_eq_true', Bool.or_eq_false_iff, decide_eq_false_iff_not]
    grind
  constructor
  · rintro ⟨h, r, rfl, h1, h2, h3, h4⟩
    have h0 : (h ++ r).takeWhile notFileHostEnd ++ (h ++ r).dropWhile notFileHostEnd = h ++ r := List.takeWhile_append_dropWhile
    obtain ⟨h5, h6⟩ := span_unique (stop := fun c => notFileHostEnd c = false) h0 (fun c hc => by rw [mem_takeWhile c hc]; simp)
      (fun c hc => by rw [(hE c).2 (h1 c hc)]; simp) (fun c hc => head_dropWhile hc)
      (fun c hc => by rcases h4.2 c hc with rfl | rfl | rfl <;> rfl)
    rw [h5, h6]
    exact ⟨h2, h3, h4.1⟩
  · rintro ⟨h1, h2, h3⟩
    refine ⟨_, _, List.takeWhile_append_dropWhile.symm, fun c hc => (hE c).1 (mem_takeWhile c hc), h1, h2, h3, fun c hc => ?_⟩
    have := head_dropWhile hc
    simp only [notFileHostEnd, Bool.not_eq_false', Bool.or_eq_true, decide_eq_true_eq] at this
    rcases this with ((h | rfl) | h) | h
    · exact .inl h
    · exfalso
      cases hr : t.dropWhile notFileHostEnd with
      | nil => rw [hr] at hc; cases hc
      | cons x r =>
        rw [hr] at hc h3
        cases hc
        exact pathText_backslash h3
    · exact .inr (.inl h)
    · exact .inr (.inr h)

theorem quiet_fileHost {i : Nat} {url : Rec} {t : Str} (hd : s.drop i = t) {segs : List Str} (hu : url.path = .list segs)
    (hsp : url.isSpecial = true) : Quiet env e s base .fileHost i url ↔ FileAuthority (HostSilent env) t := by
  rw [fileAuthority_iff]
  obtain ⟨j, hj⟩ := fileHostLoop_end (env := env) t i [] url
  have hst : step env e s base none .fileHost i url = fileHostEnd env false j (t.takeWhile notFileHostEnd) url := by
    show fileHostLoop env false (s.drop i) i [] url = _
    rw [hd, hj, List.nil_append]
  have hstep : sstep env e base none .fileHost t url = sFileHostEnd env false (t.takeWhile notFileHostEnd) (t.dropWhile notFileHostEnd) url := rfl
  generalize t.takeWhile notFileHostEnd = h at hst hstep ⊢
  generalize t.dropWhile notFileHostEnd = r at hst hstep ⊢
  by_cases hw : isWindowsDriveLetter h = true
  · refine ⟨fun hq => ?_, fun hh => absurd ((driveLetter_iff h).1 hw) hh.2.1⟩
    have := quiet_log (by decide) hq
    rw [hst] at this
    unfold fileHostEnd at this
    rw [if_pos (by simpa using hw)] at this
    cases this
  · have hnd : ¬ DriveLetter h := fun hh => hw ((driveLetter_iff h).2 hh)
    unfold sFileHostEnd at hstep
    rw [if_neg (by simpa using hw)] at hstep
    unfold fileHostEnd at hst
    rw [if_neg (by simpa using hw)] at hst
    by_cases hne : h = []
    · subst hne
      rw [if_pos (by rfl)] at hstep hst
      rw [quiet_via hd hstep (fun j hj => quiet_pathStart hj hu), hst]
      simp [hnd, Out.to]
    · rw [if_neg (by simpa using hne), hsp] at hstep hst
      rcases hx : hostParse env h (!true) with ⟨x, l⟩
      rw [hx] at hstep hst
      cases x with
      | error err =>
        refine ⟨fun hq => absurd hq (quiet_fail (by decide) hd hstep), fun hh => ?_⟩
        rcases hh.1 with h | ⟨y, hy⟩
        · exact absurd h hne
        · rw [hx] at hy; cases hy
      | ok x =>
        rw [quiet_via hd hstep (fun j hj => quiet_pathStart hj hu), hst]
        have : HostSilent env true h ↔ l = [] := by
          unfold HostSilent
          rw [hx]
          constructor
          · rintro ⟨y, hy⟩; cases hy; rfl
          · rintro rfl; exact ⟨x, rfl⟩
        rw [this]
        simp [hne, hnd, Out.to]

/-- "/" and `A`, or a path without "/" -/
def SlashThen (A : Str → Prop) (t : Str) : Prop := (∃ r, t = c!"/" :: r ∧ A r) ∨ (t.head? ≠ some c!"/" ∧ PathText t)

theorem slashThen_cons {A : Str → Prop} {r : Str} : SlashThen A (c!"/" :: r) ↔ A r := by
  constructor
  · rintro (⟨r', h, hA⟩ | ⟨h, -⟩)
    · cases h; exact hA
    · exact absurd rfl h
  · exact fun h => .inl ⟨r, rfl, h⟩

theorem slashThen_other {A : Str → Prop} {t : Str} (h : t.head? ≠ some c!"/") : SlashThen A t ↔ PathText t := by
  constructor
  · rintro (⟨r', rfl, hA⟩ | ⟨-, hp⟩)
    · exact absurd rfl h
    · exact hp
  · exact fun hp => .inr ⟨h, hp⟩

theorem slashThen_twice {A : Str → Prop} {t : Str} :
    SlashThen (SlashThen A) t ↔ (∃ r, t = u!"//" ++ r ∧ A r) ∨ (¬ u!"//" <+: t ∧ PathText t) := by
  by_cases h1 : t.head? = some c!"/"
  · cases t with
    | nil => cases h1
    | cons c t =>
      cases h1
      rw [slashThen_cons, pathText_slash]
      by_cases h2 : t.head? = some c!"/"
      · cases t with
        | nil => cases h2
        | cons c t =>
          cases h2
          rw [slashThen_cons]
          constructor
          · exact fun h => .inl ⟨t, rfl, h⟩
          · rintro (⟨r, h, hA⟩ | ⟨h, -⟩)
            · cases h; exact hA
            · exact absurd ⟨t, rfl⟩ h
      · rw [slashThen_other h2]
        constructor
        · refine fun h => .inr ⟨?_, h⟩
          rintro ⟨r, hr⟩
          cases hr
          exact h2 rfl
        · rintro (⟨r, h, hA⟩ | ⟨-, h⟩)
          · cases h; exact absurd rfl h2
          · exact h
  · rw [slashThen_other h1]
    constructor
    · refine fun h => .inr ⟨?_, h⟩
      rintro ⟨r, rfl⟩
      exact h1 rfl
    · rintro (⟨r, rfl, hA⟩ | ⟨-, h⟩)
      · exact absurd rfl h1
      · exact h

theorem sFileSlashPath_path {t : Str} {url : Rec} {segs : List Str} (hu : url.path = .list segs) :
    ∃ u l, sFileSlashPath base t url = .to .path t u ∧ u.path = .list l := by
  unfold sFileSlashPath
  cases base with
  | none => exact ⟨_, _, rfl, hu⟩
  | some b =>
    dsimp only
    split
    · split
      · split
        · rw [hu]
          exact ⟨_, _, rfl, rfl⟩
        · exact ⟨_, _, rfl, hu⟩
      · exact ⟨_, _, rfl, hu⟩
    · exact ⟨_, _, rfl, hu⟩

theorem parseFileSlash_log (url : Rec) {i : Nat} {t : Str} (hd : s.drop i = t) (hh : t.head? ≠ some c!"\\") : (parseFileSlash s i base url).log = [] := by
  have hother : ∀ t : Str, (match base with
      | none => Out.to .path i url
      | some b =>
        if b.scheme = u!"file" then
          let url := { url with host := b.host }
          match b.path with
          | .list (p0 :: _) =>
            if !startsWithWindowsDriveLetter t && isNormalizedWindowsDriveLetter p0 then
              match url.path with
              | .list p => .to .path i { url with path := .list (p ++ [p0]) }
              | .opaque _ => .fail .assertionError url
            else .to .path i url
          | _ => .to .path i url
        else .to .path i url).log = [] := by
    intro t
    cases base with
    | none => rfl
    | some b =>
      dsimp only
      split
      · split
        · split
          · split <;> rfl
          · rfl
        · rfl
      · rfl
  unfold parseFileSlash
  dsimp only
  rw [hd]
  cases t with
  | nil => exact hother []
  | cons c t =>
    dsimp only
    split
    · rfl
    · rw [if_neg (by rintro rfl; exact hh rfl)]
      exact hother (c :: t)

theorem quiet_fileSlash {i : Nat} {url : Rec} {t : Str} (hd : s.drop i = t) {segs : List Str} (hu : url.path = .list segs)
    (hsp : url.isSpecial = true) : Quiet env e s base .fileSlash i url ↔ SlashThen (FileAuthority (HostSilent env)) t := by
  by_cases hb : t.head? = some c!"\\"
  · cases t with
    | nil => cases hb
    | cons c t =>
      cases hb
      rw [slashThen_other (by simp)]
      refine ⟨fun hq => ?_, fun h => absurd h pathText_backslash⟩
      have := quiet_log (by decide) hq
      change (parseFileSlash s i base url).log = [] at this
      unfold parseFileSlash at this
      dsimp only at this
      rw [hd] at this
      cases this
  · have hlog : (step env e s base none .fileSlash i url).log = [] := parseFileSlash_log url hd hb
    by_cases h1 : t.head? = some c!"/"
    · cases t with
      | nil => cases h1
      | cons c t =>
        cases h1
        rw [slashThen_cons, quiet_via hd (st' := .fileHost) (t' := t) (url' := url) rfl (fun j hj => quiet_fileHost hj hu hsp), hlog]
        simp
    · obtain ⟨u, l, h2, h3⟩ := sFileSlashPath_path (base := base) (t := t) hu
      have hs : sstep env e base none .fileSlash t url = .to .path t u := by
        rw [← h2]
        show sFileSlash base t url = _
        unfold sFileSlash
        cases t with
        | nil => rfl
        | cons c t =>
          dsimp only
          rw [if_neg]
          simp only [Bool.or_eq_true, decide_eq_true_eq]
          rintro (rfl | rfl)
          · exact h1 rfl
          · exact hb rfl
      rw [slashThen_other h1, quiet_via hd hs (fun j hj => quiet_path hj h3), hlog]
      simp

theorem file_special (u : Rec) (h : u.scheme = u!"file") : u.isSpecial = true := by
  unfold Rec.isSpecial
  rw [h]
  decide

/-- the file state at "/" -/
theorem quiet_file_slash {i : Nat} {url : Rec} {r : Str} (hd : s.drop i = c!"/" :: r) {segs : List Str} (hu : url.path = .list segs) :
    Quiet env e s base .file i url ↔ SlashThen (FileAuthority (HostSilent env)) r := by
  have hs : sstep env e base none .file (c!"/" :: r) url = .to .fileSlash r { url with scheme := u!"file", host := some (.str []) } := rfl
  rw [quiet_via hd hs (fun j hj => quiet_fileSlash hj hu (file_special _ rfl))]
  have : (step env e s base none .file i url).log = [] := by
    show (parseFile s i base url).log = []
    unfold parseFile
    dsimp only
    rw [hd]
    rfl
  rw [this]
  simp

theorem drive_start {t : Str} (h : startsWithWindowsDriveLetter t = true) :
    ∃ a b r, t = a :: b :: r ∧ isAlpha a = true ∧ (b = 58 ∨ b = 124) := by
  unfold startsWithWindowsDriveLetter at h
  split at h
  · rename_i a b r
    rw [Bool.and_eq_true] at h
    obtain ⟨x, y, hxy, h1, h2⟩ := drive_shape h.1
    cases hxy
    exact ⟨_, _, _, rfl, h1, h2⟩
  · cases h

/-- the file state without "/", for a base that is a file -/
theorem quiet_file_other {b : Rec} (hbf : b.scheme = u!"file") {l : List Str} (hbl : b.path = .list l) {i : Nat} {url : Rec} {t : Str}
    (hd : s.drop i = t) (hn : ¬ HasScheme t) (h1 : t.head? ≠ some c!"/") :
    Quiet env e s (some b) .file i url ↔ PathText t := by
  cases t with
  | nil =>
    have hs : sstep env e (some b) none .file [] url =
        .to .path [] { url with scheme := u!"file", host := b.host, path := b.path, query := b.query } := by
      show sFile (some b) [] url = _
      unfold sFile sFilePath
      dsimp only
      rw [if_pos hbf]
    rw [quiet_via hd hs (fun j hj => quiet_path hj hbl)]
    have : (step env e s (some b) none .file i url).log = [] := by
      show (parseFile s i (some b) url).log = []
      unfold parseFile
      dsimp only
      rw [hd]
      dsimp only
      rw [if_pos hbf]
      rfl
    rw [this]
    simp
  | cons c t =>
    have c1 : c ≠ c!"/" := by rintro rfl; exact h1 rfl
    by_cases c2 : c = c!"\\"
    · subst c2
      refine ⟨fun hq => ?_, fun h => absurd h pathText_backslash⟩
      have := quiet_log (by decide) hq
      change (parseFile s i (some b) url).log = [] at this
      unfold parseFile at this
      dsimp only at this
      rw [hd] at this
      cases this
    · have hs0 : sstep env e (some b) none .file (c :: t) url =
          sFilePath (some b) (c :: t) { url with scheme := u!"file", host := some (.str []) } := by
        show sFile (some b) (c :: t) url = _
        unfold sFile
        dsimp only
        rw [if_neg (by simp [c1, c2])]
      unfold sFilePath at hs0
      dsimp only at hs0
      rw [if_pos hbf] at hs0
      have hl0 : (step env e s (some b) none .file i url).log = (parseFile s i (some b) url).log := rfl
      unfold parseFile at hl0
      dsimp only at hl0
      rw [hd] at hl0
      dsimp only at hl0
      rw [if_neg c1, if_neg c2, if_pos hbf] at hl0
      by_cases c3 : c = c!"?"
      · subst c3
        rw [if_pos rfl] at hs0 hl0
        rw [quiet_via hd hs0 (fun j hj => quiet_query hj (by simp)), hl0, pathText_tail (by simp [notQF]), tailText_question]
        simp [Out.to]
      · rw [if_neg c3] at hs0 hl0
        by_cases c4 : c = c!"#"
        · subst c4
          rw [if_pos rfl] at hs0 hl0
          rw [quiet_via hd hs0 (fun j hj => quiet_fragment hj (by simp)), hl0, pathText_tail (by simp [notQF]), tailText_hash]
          simp [Out.to]
        · rw [if_neg c4] at hs0 hl0
          by_cases hw : startsWithWindowsDriveLetter (c :: t) = true
          · rw [if_neg (by simpa using hw)] at hl0
            refine ⟨fun hq => ?_, fun hp => ?_⟩
            · have := quiet_log (by decide) hq
              rw [hl0] at this
              cases this
            · exfalso
              obtain ⟨x, y, r, hxy, hx, hy⟩ := drive_start hw
              cases hxy
              rcases hy with rfl | rfl
              · exact hn ⟨[c], r, ⟨c, [], rfl, isAlpha_iff.1 hx, by simp⟩, rfl⟩
              · have hu := ((pathText_iff _).1 hp).1
                rw [List.takeWhile_cons, if_pos (by simp [notQF, c3, c4]), List.takeWhile_cons, if_pos (by decide)] at hu
                exact units_not hu (c := 124) (by decide) (by decide) (by simp)
          · rw [if_pos (by simpa using hw)] at hs0 hl0
            unfold shortenRec at hs0 hl0
            dsimp only at hs0 hl0
            rw [hbl] at hs0 hl0
            rw [quiet_via hd hs0 (fun j hj => quiet_path hj rfl), hl0]
            simp [Out.to]

/-! ### Relative references -/

theorem quiet_relativeSlash {b : Rec} {i : Nat} {url : Rec} {t : Str} (hd : s.drop i = t) {segs : List Str} (hu : url.path = .list segs) :
    Quiet env e s (some b) .relativeSlash i url ↔ SlashThen (AuthorityText (HostSilent env) (DigitsOK env) url.isSpecial) t := by
  by_cases h1 : t.head? = some c!"/"
  · cases t with
    | nil => cases h1
    | cons c t =>
      cases h1
      rw [slashThen_cons]
      cases hsp : url.isSpecial with
      | true =>
        have hs : sstep env e (some b) none .relativeSlash (c!"/" :: t) url = .to .specialAuthorityIgnoreSlashes t url := by
          show sRelativeSlash (some b) (c!"/" :: t) url = _
          unfold sRelativeSlash
          simp [hsp]
        have hl : (step env e s (some b) none .relativeSlash i url).log = [] := by
          show (parseRelativeSlash s i (some b) url).log = []
          unfold parseRelativeSlash
          dsimp only
          rw [hd, hsp]
          rfl
        rw [quiet_via hd hs (fun j hj => quiet_ignoreSlashes hj hu hsp), hl]
        simp
      | false =>
        have hs : sstep env e (some b) none .relativeSlash (c!"/" :: t) url = .to .authority t url := by
          show sRelativeSlash (some b) (c!"/" :: t) url = _
          unfold sRelativeSlash
          simp [hsp]
        have hl : (step env e s (some b) none .relativeSlash i url).log = [] := by
          show (parseRelativeSlash s i (some b) url).log = []
          unfold parseRelativeSlash
          dsimp only
          rw [hd, hsp]
          rfl
        rw [quiet_via hd hs (fun j hj => quiet_authority hj hu), hl, hsp]
        simp
  · rw [slashThen_other h1]
    by_cases hb : url.isSpecial = true ∧ t.head? = some c!"\\"
    · obtain ⟨hsp, hb⟩ := hb
      cases t with
      | nil => cases hb
      | cons c t =>
        cases hb
        refine ⟨fun hq => ?_, fun h => absurd h pathText_backslash⟩
        have := quiet_log (by decide) hq
        change (parseRelativeSlash s i (some b) url).log = [] at this
        unfold parseRelativeSlash at this
        dsimp only at this
        rw [hd, hsp] at this
        cases this
    · have hs : sstep env e (some b) none .relativeSlash t url = .to .path t
          { url with username := b.username, password := b.password, host := b.host, port := b.port } := by
        show sRelativeSlash (some b) t url = _
        unfold sRelativeSlash
        dsimp only
        rw [if_neg, if_neg h1]
        simp only [Bool.and_eq_true, Bool.or_eq_true, decide_eq_true_eq]
        rintro ⟨h, h' | h'⟩
        · exact hb ⟨h, h'⟩
        · exact h1 h'
      have hl : (step env e s (some b) none .relativeSlash i url).log = [] := by
        show (parseRelativeSlash s i (some b) url).log = []
        unfold parseRelativeSlash
        dsimp only
        rw [hd, if_neg (by simpa using hb), if_neg (by simp [h1]), if_neg h1]
        rfl
      rw [quiet_via hd hs (fun j hj => quiet_path hj hu), hl]
      simp

theorem quiet_relative {b : Rec} (hbf : b.scheme ≠ u!"file") {l : List Str} (hbl : b.path = .list l) {i : Nat} {url : Rec} {t : Str}
    (hd : s.drop i = t) {segs : List Str} (hu : url.path = .list segs) :
    Quiet env e s (some b) .relative i url ↔
      SlashThen (SlashThen (AuthorityText (HostSilent env) (DigitsOK env) b.isSpecial)) t := by
  have hs0 : sstep env e (some b) none .relative t url = sRelative (some b) t url := rfl
  unfold sRelative at hs0
  dsimp only at hs0
  rw [if_neg hbf] at hs0
  have hl0 : (step env e s (some b) none .relative i url).log = (parseRelative s i (some b) url).log := rfl
  unfold parseRelative at hl0
  dsimp only at hl0
  rw [if_neg hbf, hd] at hl0
  cases t with
  | nil =>
    rw [slashThen_other (by simp), quiet_via hd hs0 (fun j hj => quiet_eof j _), hl0, pathText_tail (by simp)]
    simp [Out.to, tailText_nil]
  | cons c t =>
    dsimp only at hs0 hl0
    by_cases c1 : c = c!"/"
    · subst c1
      rw [if_pos (by simp)] at hs0
      rw [if_pos rfl] at hl0
      rw [slashThen_cons, quiet_via hd hs0 (fun j hj => quiet_relativeSlash hj hu), hl0]
      simp [Out.to]
      rfl
    · rw [slashThen_other (by simpa using c1)]
      rw [if_neg c1] at hl0
      by_cases c2 : b.isSpecial = true ∧ c = c!"\\"
      · obtain ⟨hsp, rfl⟩ := c2
        refine ⟨fun hq => ?_, fun h => absurd h pathText_backslash⟩
        have := quiet_log (by decide) hq
        rw [hl0] at this
        have hsp' : Rec.isSpecial { url with scheme := b.scheme } = true := hsp
        rw [hsp'] at this
        cases this
      · have hsp' : Rec.isSpecial { url with scheme := b.scheme } = b.isSpecial := rfl
        rw [hsp', if_neg (by simpa using c2)] at hl0
        rw [if_neg (by simp only [Bool.or_eq_true, Bool.and_eq_true, decide_eq_true_eq]; exact not_or.2 ⟨c1, c2⟩)] at hs0
        by_cases c3 : c = c!"?"
        · subst c3
          rw [if_pos rfl] at hs0 hl0
          rw [quiet_via hd hs0 (fun j hj => quiet_query hj (by simp)), hl0, pathText_tail (by simp [notQF]), tailText_question]
          simp [Out.to]
        · rw [if_neg c3] at hs0 hl0
          by_cases c4 : c = c!"#"
          · subst c4
            rw [if_pos rfl] at hs0 hl0
            rw [quiet_via hd hs0 (fun j hj => quiet_fragment hj (by simp)), hl0, pathText_tail (by simp [notQF]), tailText_hash]
            simp [Out.to]
          · rw [if_neg c4] at hs0 hl0
            unfold shortenRec copyBase at hs0
            unfold shortenRec at hl0
            dsimp only at hs0 hl0
            rw [hbl] at hs0 hl0
            rw [quiet_via hd hs0 (fun j hj => quiet_path hj rfl), hl0]
            simp [Out.to]

theorem quiet_pathOrAuthority {i : Nat} {url : Rec} {t : Str} (hd : s.drop i = t) {segs : List Str} (hu : url.path = .list segs) :
    Quiet env e s base .pathOrAuthority i url ↔ SlashThen (AuthorityText (HostSilent env) (DigitsOK env) url.isSpecial) t := by
  have hl : (step env e s base none .pathOrAuthority i url).log = [] := by
    show (parsePathOrAuthority s i url).log = []
    unfold parsePathOrAuthority
    split <;> rfl
  have hs0 : sstep env e base none .pathOrAuthority t url = sPathOrAuthority t url := rfl
  unfold sPathOrAuthority at hs0
  by_cases h1 : t.head? = some c!"/"
  · rw [if_pos h1] at hs0
    cases t with
    | nil => cases h1
    | cons c t =>
      cases h1
      rw [slashThen_cons, quiet_via hd hs0 (fun j hj => quiet_authority hj hu), hl]
      simp
  · rw [if_neg h1] at hs0
    rw [slashThen_other h1, quiet_via hd hs0 (fun j hj => quiet_path hj hu), hl]
    simp

/-- the states in front of the authority of a special URL -/
theorem quiet_special {st : PState} (hst : st = .specialRelativeOrAuthority ∨ st = .specialAuthoritySlashes) {i : Nat} {url : Rec} {t : Str}
    (hd : s.drop i = t) {segs : List Str} (hu : url.path = .list segs) (hsp : url.isSpecial = true) :
    Quiet env e s base st i url ↔ ∃ r, t = u!"//" ++ r ∧ AuthorityText (HostSilent env) (DigitsOK env) true r := by
  have hl : (step env e s base none st i url).log = [] ↔ t.take 2 = u!"//" := by
    rcases hst with rfl | rfl
    · show (parseSpecialRelativeOrAuthority s i url).log = [] ↔ _
      unfold parseSpecialRelativeOrAuthority
      rw [hd]
      split
      · rename_i h; simp [h, Out.to]
      · rename_i h; simp [h, Out.to]
    · show (parseSpecialAuthoritySlashes s i url).log = [] ↔ _
      unfold parseSpecialAuthoritySlashes
      rw [hd]
      split
      · rename_i h; simp [h, Out.to]
      · rename_i h; simp [h, Out.to]
  have hne : st ≠ .eof := by rcases hst with rfl | rfl <;> decide
  by_cases h : t.take 2 = u!"//"
  · have ht : t = u!"//" ++ t.drop 2 := by rw [← h]; exact (List.take_append_drop 2 t).symm
    have hs : sstep env e base none st t url = .to .specialAuthorityIgnoreSlashes (t.drop 2) url := by
      rcases hst with rfl | rfl
      · show sSpecialRelativeOrAuthority t url = _
        unfold sSpecialRelativeOrAuthority
        rw [if_pos h]
      · show sSpecialAuthoritySlashes t url = _
        unfold sSpecialAuthoritySlashes
        rw [if_pos h]
    rw [quiet_via hd hs (fun j hj => quiet_ignoreSlashes hj hu hsp), hl]
    constructor
    · rintro ⟨-, hA⟩
      exact ⟨_, ht, hA⟩
    · rintro ⟨r, rfl, hA⟩
      exact ⟨h, hA⟩
  · refine ⟨fun hq => absurd (hl.1 (quiet_log hne hq)) h, ?_⟩
    rintro ⟨r, rfl, -⟩
    exact absurd rfl h

end

end Urlstd
