/-
In a special URL the parser reads a backslash as a slash.
-/
import Verif.Lemmas.Prepare
import Verif.Spec.Reference

set_option linter.unusedSimpArgs false
set_option linter.unusedVariables false

namespace Urlstd

open Spec (slashes)

/-- a backslash becomes a slash -/
def slashC (c : Nat) : Nat := if c = 92 then 47 else c

theorem slashes_nil : slashes [] = [] := rfl

theorem slashes_qf {c : Nat} {cs : Str} (h : c = 63 ∨ c = 35) : slashes (c :: cs) = c :: cs := by
  unfold slashes
  rw [if_pos h]

theorem slashes_cons {c : Nat} {cs : Str} (h : ¬ (c = 63 ∨ c = 35)) : slashes (c :: cs) = slashC c :: slashes cs := by
  conv => lhs; unfold slashes
  rw [if_neg h]; rfl

theorem slashC_qf {c : Nat} : (slashC c = 63 ∨ slashC c = 35) ↔ (c = 63 ∨ c = 35) := by
  unfold slashC
  split <;> omega

/-- splitting at a set of characters that contains "?", "#" and slashes -/
theorem slashes_takeWhile {p : Nat → Bool} (h1 : p 63 = false) (h2 : p 35 = false) (h3 : p 47 = false)
    (h4 : p 92 = false) (s : Str) :
    (slashes s).takeWhile p = s.takeWhile p ∧ (slashes s).dropWhile p = slashes (s.dropWhile p) := by
  induction s with
  | nil => exact ⟨rfl, rfl⟩
  | cons c cs ih =>
    by_cases hq : c = 63 ∨ c = 35
    · have hp : p c = false := by rcases hq with rfl | rfl <;> assumption
      rw [slashes_qf hq]
      simp [hp, slashes_qf hq]
    · rw [slashes_cons hq]
      by_cases hb : c = 92
      · subst hb
        have hs : slashC 92 = 47 := rfl
        simp [hs, h3, h4, slashes_cons]
      · have hs : slashC c = c := if_neg hb
        rw [hs]
        cases hp : p c with
        | false => simp [hp, slashes_cons hq, hs]
        | true => simp [hp, ih]

/-- splitting at a set of characters that contains "?" and "#" but no slashes -/
theorem slashes_skip {p : Nat → Bool} (h1 : p 63 = false) (h2 : p 35 = false) (h3 : p 47 = true)
    (h4 : p 92 = true) (s : Str) :
    (slashes s).dropWhile p = slashes (s.dropWhile p) := by
  induction s with
  | nil => rfl
  | cons c cs ih =>
    by_cases hq : c = 63 ∨ c = 35
    · have hp : p c = false := by rcases hq with rfl | rfl <;> assumption
      rw [slashes_qf hq]
      simp [hp, slashes_qf hq]
    · rw [slashes_cons hq]
      by_cases hb : c = 92
      · subst hb
        have hs : slashC 92 = 47 := rfl
        simp [hs, h3, h4, ih]
      · have hs : slashC c = c := if_neg hb
        rw [hs]
        cases hp : p c with
        | false => simp [hp, slashes_cons hq, hs]
        | true => simp [hp, ih]

theorem slashes_notQF (s : Str) :
    (slashes s).takeWhile notQF = (s.takeWhile notQF).map slashC ∧ (slashes s).dropWhile notQF = s.dropWhile notQF := by
  induction s with
  | nil => exact ⟨rfl, rfl⟩
  | cons c cs ih =>
    by_cases hq : c = 63 ∨ c = 35
    · have hp : notQF c = false := by rcases hq with rfl | rfl <;> decide
      rw [slashes_qf hq]
      simp [hp]
    · have hp : notQF c = true := by simpa [notQF] using hq
      have hp' : notQF (slashC c) = true := by
        have := mt slashC_qf.1 hq
        simpa [notQF] using this
      rw [slashes_cons hq]
      simp [hp, hp', ih]

theorem slashes_append {a b : Str} (ha : ∀ c ∈ a, c ≠ 63 ∧ c ≠ 35 ∧ c ≠ 92) : slashes (a ++ b) = a ++ slashes b := by
  induction a with
  | nil => rfl
  | cons c cs ih =>
    have h := ha c (by simp)
    rw [List.cons_append, slashes_cons (by omega), ih fun x hx => ha x (by simp [hx])]
    rw [show slashC c = c from if_neg h.2.2]; rfl

theorem pathPieces_slash (s : Str) : pathPieces true (s.map slashC) = pathPieces true s := by
  induction s with
  | nil => rfl
  | cons c cs ih =>
    rw [List.map_cons]
    unfold pathPieces
    have h : isPathSep true (slashC c) = isPathSep true c := by
      unfold isPathSep slashC
      by_cases hb : c = 92
      · subst hb; rfl
      · rw [if_neg hb]
    rw [h, ih]
    by_cases hs : isPathSep true c = true
    · rw [if_pos hs, if_pos hs]
    · rw [if_neg hs, if_neg hs]
      have : slashC c = c := by
        unfold slashC
        rw [if_neg]
        intro hc; subst hc; exact hs rfl
      rw [this]

theorem drive_slash (s : Str) : startsWithWindowsDriveLetter (slashes s) = startsWithWindowsDriveLetter s := by
  match s with
  | [] => rfl
  | [a] =>
    by_cases ha : a = 63 ∨ a = 35
    · rw [slashes_qf ha]
    · rw [slashes_cons ha]; rfl
  | a :: b :: r =>
    by_cases ha : a = 63 ∨ a = 35
    · rw [slashes_qf ha]
    · rw [slashes_cons ha]
      have key : ∀ x y, isWindowsDriveLetter [slashC x, y] = isWindowsDriveLetter [x, y] := by
        intro x y
        unfold slashC
        split
        · next h => subst h; simp [isWindowsDriveLetter, isAlpha]
        · rfl
      by_cases hb : b = 63 ∨ b = 35
      · rw [slashes_qf hb]
        simp only [startsWithWindowsDriveLetter, key]
      · rw [slashes_cons hb]
        have key2 : ∀ x y, isWindowsDriveLetter [x, slashC y] = isWindowsDriveLetter [x, y] := by
          intro x y
          unfold slashC
          split
          · next h => subst h; simp [isWindowsDriveLetter]
          · rfl
        simp only [startsWithWindowsDriveLetter, key, key2]
        cases r with
        | nil => rfl
        | cons c cs =>
          by_cases hc : c = 63 ∨ c = 35
          · rw [slashes_qf hc]
          · rw [slashes_cons hc]
            have : (u!"/\\?#").contains (slashC c) = (u!"/\\?#").contains c := by
              unfold slashC
              split
              · next h => subst h; rfl
              · rfl
            simp only [this]

/-! ### The states -/

section
variable (env : Env) (e : Encoding) (base : Option Rec)

theorem slash_path {url : Rec} (hsp : url.isSpecial = true) (r : Str) :
    eval env e base none .path (slashes r) url = eval env e base none .path r url := by
  rw [eval_step _ _ _ _ (by decide), eval_step _ _ _ _ (by decide)]
  have : sstep env e base none .path (slashes r) url = sstep env e base none .path r url := by
    show sPath none (slashes r) url = sPath none r url
    unfold sPath
    split
    · rfl
    · have h := slashes_notQF r
      simp only [pathRest, pathText, Option.isSome, Bool.false_eq_true, if_false, h.1, h.2, hsp, pathPieces_slash]
  rw [this]

theorem slash_pathStart {url : Rec} (hsp : url.isSpecial = true) (r : Str) :
    eval env e base none .pathStart (slashes r) url = eval env e base none .pathStart r url := by
  cases r with
  | nil => rfl
  | cons c cs =>
    by_cases hq : c = 63 ∨ c = 35
    · rw [slashes_qf hq]
    · rw [eval_step _ _ _ _ (by decide), eval_step _ _ _ _ (by decide)]
      show (sPathStart none (slashes (c :: cs)) url).andThen env e base none =
        (sPathStart none (c :: cs) url).andThen env e base none
      rw [slashes_cons hq]
      unfold sPathStart
      dsimp only
      rw [hsp, if_pos rfl, if_pos rfl]
      have h : isPathSep true (slashC c) = isPathSep true c := by
        unfold isPathSep slashC
        by_cases hb : c = 92
        · subst hb; rfl
        · rw [if_neg hb]
      rw [h]
      split
      · exact slash_path env e base hsp cs
      · have := slash_path env e base hsp (c :: cs)
        rw [slashes_cons hq] at this
        exact this

theorem slash_port {url : Rec} (hsp : url.isSpecial = true) (r : Str) :
    eval env e base none .port (slashes r) url = eval env e base none .port r url := by
  rw [eval_step _ _ _ _ (by decide), eval_step _ _ _ _ (by decide)]
  show (sPort env none (slashes r) url).andThen env e base none = (sPort env none r url).andThen env e base none
  have h := slashes_takeWhile (p := isDigit) rfl rfl rfl rfl r
  unfold sPort
  rw [h.1, h.2]
  generalize r.takeWhile isDigit = b
  generalize r.dropWhile isDigit = t
  have key : ∀ t, (sPortEnd env false b (slashes t) url).andThen env e base none =
      (sPortEnd env false b t url).andThen env e base none := by
    intro t
    unfold sPortEnd
    dsimp only
    split
    · exact slash_pathStart env e base hsp t
    · split
      · rfl
      · split
        · rfl
        · exact slash_pathStart env e base (by exact hsp) t
  cases t with
  | nil => rfl
  | cons c cs =>
    have := key (c :: cs)
    by_cases hq : c = 63 ∨ c = 35
    · rw [slashes_qf hq]
    · rw [slashes_cons hq] at this ⊢
      unfold sPortGo
      dsimp only [Option.isSome]
      have h : isAuthorityEnd url.isSpecial (slashC c) = isAuthorityEnd url.isSpecial c := by
        rw [hsp]
        unfold isAuthorityEnd slashC
        by_cases hb : c = 92
        · subst hb; rfl
        · rw [if_neg hb]
      rw [h]
      split
      · exact this
      · rfl

theorem slash_hostSpan (s : Str) : ∀ inside, hostSpan true inside (slashes s) =
    ((hostSpan true inside s).1, slashes (hostSpan true inside s).2) := by
  induction s with
  | nil => intro i; rfl
  | cons c cs ih =>
    intro i
    have hend : ∀ x, (x = 63 ∨ x = 35 ∨ x = 47 ∨ x = 92) → isAuthorityEnd true x = true := by
      rintro x (rfl | rfl | rfl | rfl) <;> rfl
    by_cases hq : c = 63 ∨ c = 35
    · have h : isAuthorityEnd true c = true := hend c (by omega)
      rw [slashes_qf hq]
      have : hostSpan true i (c :: cs) = ([], c :: cs) := by
        unfold hostSpan
        rw [if_pos (by simp [h])]
      rw [this, slashes_qf hq]
    · rw [slashes_cons hq]
      by_cases hb : c = 92
      · subst hb
        have h1 : hostSpan true i (92 :: cs) = ([], 92 :: cs) := by
          unfold hostSpan
          rw [if_pos (by simp [hend])]
        have h2 : hostSpan true i (slashC 92 :: slashes cs) = ([], 47 :: slashes cs) := by
          unfold hostSpan
          rw [if_pos (by simp [hend, slashC])]; rfl
        rw [h1, h2, slashes_cons (by decide)]; rfl
      · rw [show slashC c = c from if_neg hb]
        conv => lhs; unfold hostSpan
        conv => rhs; unfold hostSpan
        split
        · dsimp only
          rw [slashes_cons hq, show slashC c = c from if_neg hb]
        · dsimp only
          rw [ih]

theorem slash_host {url : Rec} (hsp : url.isSpecial = true) (r : Str) :
    eval env e base none .host (slashes r) url = eval env e base none .host r url := by
  rw [eval_step _ _ _ _ (by decide), eval_step _ _ _ _ (by decide)]
  show (sHost env none (slashes r) url).andThen env e base none = (sHost env none r url).andThen env e base none
  unfold sHost
  rw [if_neg (by simp), if_neg (by simp), hsp, slash_hostSpan]
  dsimp only
  generalize (hostSpan true false r).1 = b
  generalize (hostSpan true false r).2 = t
  have key : ∀ t, (sHostEnd env false b (slashes t) url).andThen env e base none =
      (sHostEnd env false b t url).andThen env e base none := by
    intro t
    unfold sHostEnd
    split
    · rfl
    · rw [if_neg (by simp), if_neg (by simp)]
      split
      · rfl
      · exact slash_pathStart env e base (by exact hsp) t
  cases t with
  | nil => rfl
  | cons c cs =>
    have := key (c :: cs)
    by_cases hq : c = 63 ∨ c = 35
    · rw [slashes_qf hq]
    · rw [slashes_cons hq] at this ⊢
      unfold sHostGo
      dsimp only [Option.isSome]
      by_cases hc : c = 58
      · subst hc
        rw [if_pos (by rfl), if_pos rfl]
        split
        · rfl
        · rw [if_neg (by simp), if_neg (by simp)]
          split
          · rfl
          · exact slash_port env e base (by exact hsp) cs
      · have : slashC c ≠ 58 := by
          unfold slashC; split <;> omega
        rw [if_neg this, if_neg hc]
        assumption

theorem splitAtLast_mem (c : Nat) : ∀ (s a b : Str), splitAtLast c s = some (a, b) → ∀ x ∈ b, x ∈ s := by
  intro s
  induction s with
  | nil => intro a b h; simp [splitAtLast] at h
  | cons y ys ih =>
    intro a b h x hx
    unfold splitAtLast at h
    cases hs : splitAtLast c ys with
    | some p =>
      rw [hs] at h
      simp only [Option.some.injEq, Prod.mk.injEq] at h
      exact List.mem_cons_of_mem _ (ih p.1 b (by rw [hs, ← h.2]) x hx)
    | none =>
      rw [hs] at h
      dsimp only at h
      split at h
      · simp only [Option.some.injEq, Prod.mk.injEq] at h
        exact List.mem_cons_of_mem _ (h.2 ▸ hx)
      · cases h

theorem slash_authority {url : Rec} (hsp : url.isSpecial = true) (r : Str) :
    eval env e base none .authority (slashes r) url = eval env e base none .authority r url := by
  rw [eval_step _ _ _ _ (by decide), eval_step _ _ _ _ (by decide)]
  show (sAuthority (slashes r) url).andThen env e base none = (sAuthority r url).andThen env e base none
  have h := slashes_takeWhile (p := notEnd true) rfl rfl rfl rfl r
  unfold sAuthority
  rw [hsp, h.1, h.2]
  dsimp only
  cases hs : splitAtLast 64 (r.takeWhile (notEnd true)) with
  | none => exact slash_host env e base hsp r
  | some p =>
    obtain ⟨ui, hst⟩ := p
    dsimp only
    split
    · rfl
    · have hadd : (addCreds url ui).isSpecial = true := by
        unfold addCreds
        split <;> exact hsp
      have := slash_host env e base hadd (hst ++ r.dropWhile (notEnd true))
      rw [slashes_append] at this
      · exact this
      · intro c hc
        have hm := splitAtLast_mem 64 _ _ _ hs c hc
        have := takeWhile_mem hm
        refine ⟨?_, ?_, ?_⟩ <;> rintro rfl <;> simp [notEnd, isAuthorityEnd] at this

theorem slash_ignore {url : Rec} (hsp : url.isSpecial = true) (r : Str) :
    eval env e base none .specialAuthorityIgnoreSlashes (slashes r) url =
      eval env e base none .specialAuthorityIgnoreSlashes r url := by
  rw [eval_step _ _ _ _ (by decide), eval_step _ _ _ _ (by decide)]
  show eval env e base none .authority ((slashes r).dropWhile isSlash) url =
    eval env e base none .authority (r.dropWhile isSlash) url
  rw [slashes_skip rfl rfl rfl rfl, slash_authority env e base hsp]

/-- the two slashes in front of an authority are read like any number of slashes -/
theorem ignore_two {url : Rec} {r : Str} (h : ∀ c ∈ r.take 2, isSlash c = true) :
    eval env e base none .specialAuthorityIgnoreSlashes (r.drop 2) url =
      eval env e base none .specialAuthorityIgnoreSlashes r url := by
  rw [eval_step _ _ _ _ (by decide), eval_step _ _ _ _ (by decide)]
  show eval env e base none .authority ((r.drop 2).dropWhile isSlash) url =
    eval env e base none .authority (r.dropWhile isSlash) url
  conv => rhs; rw [← List.take_append_drop 2 r]
  rw [dropWhile_skip h]

theorem authoritySlashes_ignore {url : Rec} (r : Str) :
    eval env e base none .specialAuthoritySlashes r url =
      eval env e base none .specialAuthorityIgnoreSlashes r url := by
  rw [eval_step _ _ _ _ (by decide)]
  show (sSpecialAuthoritySlashes r url).andThen env e base none = _
  unfold sSpecialAuthoritySlashes
  split
  · next h =>
    refine ignore_two env e base ?_
    rw [h]
    decide
  · rfl

theorem slash_relativeSlash {url : Rec} (hsp : url.isSpecial = true) (r : Str) :
    eval env e base none .relativeSlash (slashes r) url = eval env e base none .relativeSlash r url := by
  rw [eval_step _ _ _ _ (by decide), eval_step _ _ _ _ (by decide)]
  show (sRelativeSlash base (slashes r) url).andThen env e base none =
    (sRelativeSlash base r url).andThen env e base none
  cases r with
  | nil => rfl
  | cons c cs =>
    by_cases hq : c = 63 ∨ c = 35
    · rw [slashes_qf hq]
    · by_cases hc : c = 92 ∨ c = 47
      · rw [slashes_cons hq]
        have hs : slashC c = 47 := by rcases hc with rfl | rfl <;> rfl
        unfold sRelativeSlash
        dsimp only [List.head?, List.tail]
        rw [hs, hsp, if_pos (by simp), if_pos (by simpa using hc)]
        exact slash_ignore env e base hsp cs
      · have hs : slashC c = c := if_neg (by omega)
        have h1 : slashes (c :: cs) = c :: slashes cs := by rw [slashes_cons hq, hs]
        unfold sRelativeSlash
        dsimp only
        rw [h1]
        rw [if_neg (by simpa [hsp] using hc), if_neg (by simp; omega), if_neg (by simpa [hsp] using hc),
          if_neg (by simp; omega)]
        cases base with
        | none => rfl
        | some b =>
          rw [← h1]
          exact slash_path env e (some b)
            (url := { url with username := b.username, password := b.password, host := b.host, port := b.port }) hsp _

theorem shortenRec_special {u v : Rec} (h : shortenRec u = some v) : v.isSpecial = u.isSpecial := by
  unfold shortenRec at h
  split at h
  · cases h
  · cases h; rfl

theorem slash_relative {b : Rec} (hsp : b.isSpecial = true) (url : Rec) (r : Str) :
    eval env e (some b) none .relative (slashes r) url = eval env e (some b) none .relative r url := by
  rw [eval_step _ _ _ _ (by decide), eval_step _ _ _ _ (by decide)]
  show (sRelative (some b) (slashes r) url).andThen env e (some b) none =
    (sRelative (some b) r url).andThen env e (some b) none
  unfold sRelative
  dsimp only
  split
  · rfl
  · cases r with
    | nil => rfl
    | cons c cs =>
      by_cases hq : c = 63 ∨ c = 35
      · rw [slashes_qf hq]
      · by_cases hc : c = 92 ∨ c = 47
        · rw [slashes_cons hq]
          have hs : slashC c = 47 := by rcases hc with rfl | rfl <;> rfl
          dsimp only
          rw [hs, hsp, if_pos (by simp), if_pos (by simp; omega)]
          exact slash_relativeSlash env e (some b) (url := { url with scheme := b.scheme }) hsp cs
        · have hs : slashC c = c := if_neg (by omega)
          have h1 : slashes (c :: cs) = c :: slashes cs := by rw [slashes_cons hq, hs]
          rw [h1]
          dsimp only
          have n1 : ¬ (c = 47 || (b.isSpecial && c = 92)) = true := by simp [hsp]; omega
          have n2 : ¬ c = 63 := by omega
          have n3 : ¬ c = 35 := by omega
          simp only [if_neg n1, if_neg n2, if_neg n3]
          cases hsh : shortenRec { copyBase b url with query := none } with
          | none => rfl
          | some v =>
            dsimp only
            rw [← h1]
            exact slash_path env e (some b) (by rw [shortenRec_special hsh]; exact hsp) _

/-- `special relative or authority state` does what the relative state does -/
theorem relativeOrAuthority_relative {b : Rec} {url : Rec} (hsp : url.isSpecial = true) (hs : b.scheme = url.scheme)
    (hnf : url.scheme ≠ u!"file") (r : Str) :
    eval env e (some b) none .specialRelativeOrAuthority r url = eval env e (some b) none .relative r url := by
  rw [eval_step _ _ _ _ (by decide)]
  show (sSpecialRelativeOrAuthority r url).andThen env e (some b) none = _
  unfold sSpecialRelativeOrAuthority
  split
  · next h =>
    match r, h with
    | c :: d :: cs, h =>
      simp at h
      obtain ⟨rfl, rfl⟩ := h
      show eval env e (some b) none .specialAuthorityIgnoreSlashes cs url = _
      rw [eval_step _ _ _ (st := .relative) _ (by decide)]
      show _ = (sRelative (some b) (47 :: 47 :: cs) url).andThen env e (some b) none
      unfold sRelative
      dsimp only
      rw [if_neg (by rw [hs]; exact hnf), if_pos (by simp)]
      have hu : ({ url with scheme := b.scheme } : Rec) = url := by rw [hs]
      rw [hu]
      show _ = eval env e (some b) none .relativeSlash (47 :: cs) url
      rw [eval_step _ _ _ (st := .relativeSlash) _ (by decide)]
      show _ = (sRelativeSlash (some b) (47 :: cs) url).andThen env e (some b) none
      unfold sRelativeSlash
      dsimp only [List.head?, List.tail]
      rw [hsp, if_pos (by simp)]
      rfl
  · rfl

theorem slash_filePath {url : Rec} (hsp : url.isSpecial = true) (r : Str) :
    (sFilePath base (slashes r) url).andThen env e base none = (sFilePath base r url).andThen env e base none := by
  unfold sFilePath
  cases base with
  | none => exact slash_path env e none hsp r
  | some b =>
    dsimp only
    split
    · cases r with
      | nil => rfl
      | cons c cs =>
        by_cases hq : c = 63 ∨ c = 35
        · rw [slashes_qf hq]
        · have h1 := slashes_cons (cs := cs) hq
          have h2 := mt slashC_qf.1 hq
          have h3 := drive_slash (c :: cs)
          rw [h1] at h3 ⊢
          dsimp only
          have n1 : ¬ c = 63 := by omega
          have n2 : ¬ c = 35 := by omega
          have n3 : ¬ slashC c = 63 := by omega
          have n4 : ¬ slashC c = 35 := by omega
          simp only [if_neg n1, if_neg n2, if_neg n3, if_neg n4, h3]
          split
          · cases hsh : shortenRec { url with host := b.host, path := b.path, query := none } with
            | none => rfl
            | some v =>
              dsimp only
              rw [← h1]
              exact slash_path env e (some b) (by rw [shortenRec_special hsh]; exact hsp) _
          · rw [← h1]
            exact slash_path env e (some b) (url := { url with host := b.host, path := .list [], query := none }) hsp _
    · exact slash_path env e (some b) hsp r

theorem slash_fileSlashPath {url : Rec} (hsp : url.isSpecial = true) (r : Str) :
    (sFileSlashPath base (slashes r) url).andThen env e base none =
      (sFileSlashPath base r url).andThen env e base none := by
  unfold sFileSlashPath
  cases base with
  | none => exact slash_path env e none hsp r
  | some b =>
    dsimp only
    split
    · rw [drive_slash]
      split
      · split
        · split
          · exact slash_path env e (some b) (by exact hsp) r
          · rfl
        · exact slash_path env e (some b) (url := { url with host := b.host }) hsp r
      · exact slash_path env e (some b) (url := { url with host := b.host }) hsp r
    · exact slash_path env e (some b) hsp r

theorem slash_fileHost {url : Rec} (hsp : url.isSpecial = true) (r : Str) :
    eval env e base none .fileHost (slashes r) url = eval env e base none .fileHost r url := by
  rw [eval_step _ _ _ _ (by decide), eval_step _ _ _ _ (by decide)]
  show (sFileHost env none (slashes r) url).andThen env e base none =
    (sFileHost env none r url).andThen env e base none
  have h := slashes_takeWhile (p := notFileHostEnd) rfl rfl rfl rfl r
  unfold sFileHost
  rw [h.1, h.2]
  have hb : ∀ c ∈ r.takeWhile notFileHostEnd, c ≠ 63 ∧ c ≠ 35 ∧ c ≠ 92 := by
    intro c hc
    have := takeWhile_mem hc
    refine ⟨?_, ?_, ?_⟩ <;> rintro rfl <;> simp [notFileHostEnd] at this
  generalize r.takeWhile notFileHostEnd = b at hb
  generalize r.dropWhile notFileHostEnd = t
  unfold sFileHostEnd
  split
  · rw [← slashes_append hb]
    exact slash_path env e base hsp _
  · split
    · exact slash_pathStart env e base (by exact hsp) t
    · split
      · rfl
      · exact slash_pathStart env e base (by exact hsp) t

theorem slash_fileSlash {url : Rec} (hsp : url.isSpecial = true) (r : Str) :
    eval env e base none .fileSlash (slashes r) url = eval env e base none .fileSlash r url := by
  rw [eval_step _ _ _ _ (by decide), eval_step _ _ _ _ (by decide)]
  show (sFileSlash base (slashes r) url).andThen env e base none = (sFileSlash base r url).andThen env e base none
  have key := slash_fileSlashPath env e base hsp r
  cases r with
  | nil => rfl
  | cons c cs =>
    by_cases hq : c = 63 ∨ c = 35
    · rw [slashes_qf hq]
    · rw [slashes_cons hq] at key ⊢
      unfold sFileSlash
      dsimp only
      by_cases hc : c = 92 ∨ c = 47
      · have hs : slashC c = 47 := by rcases hc with rfl | rfl <;> rfl
        rw [hs, if_pos (by simp), if_pos (by simp; omega)]
        exact slash_fileHost env e base hsp cs
      · have hs : slashC c = c := if_neg (by omega)
        rw [hs] at key ⊢
        rw [if_neg (by simp; omega), if_neg (by simp; omega)]
        exact key

theorem slash_file (url : Rec) (r : Str) :
    eval env e base none .file (slashes r) url = eval env e base none .file r url := by
  rw [eval_step _ _ _ _ (by decide), eval_step _ _ _ _ (by decide)]
  show (sFile base (slashes r) url).andThen env e base none = (sFile base r url).andThen env e base none
  have hsp : ({ url with scheme := u!"file", host := some (.str []) } : Rec).isSpecial = true := rfl
  have key := slash_filePath env e base hsp r
  cases r with
  | nil => rfl
  | cons c cs =>
    by_cases hq : c = 63 ∨ c = 35
    · rw [slashes_qf hq]
    · rw [slashes_cons hq] at key ⊢
      unfold sFile
      dsimp only
      by_cases hc : c = 92 ∨ c = 47
      · have hs : slashC c = 47 := by rcases hc with rfl | rfl <;> rfl
        rw [hs, if_pos (by simp), if_pos (by simp; omega)]
        exact slash_fileSlash env e base hsp cs
      · have hs : slashC c = c := if_neg (by omega)
        rw [hs] at key ⊢
        rw [if_neg (by simp; omega), if_neg (by simp; omega)]
        exact key

end

end Urlstd
