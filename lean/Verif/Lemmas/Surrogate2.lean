/-
The parser's steps commute with pairing surrogates.
-/
import Verif.Lemmas.Surrogate

set_option linter.unusedSimpArgs false
set_option linter.unusedVariables false

namespace Urlstd

open Spec

/-- the remaining input with its surrogates paired -/
def SOut.scal : SOut → SOut
  | .to st r u => .to st (toScalar r) u
  | .fail e u => .fail e u

@[simp] theorem scal_to (st : PState) (r : Str) (u : Rec) : (SOut.to st r u).scal = .to st (toScalar r) u := rfl
@[simp] theorem scal_fail (e : Err) (u : Rec) : (SOut.fail e u).scal = .fail e u := rfl
theorem scal_ite {c : Prop} [Decidable c] (a b : SOut) : (if c then a else b).scal = if c then a.scal else b.scal := by
  split <;> rfl

/-! ### Helpers -/

theorem toScalar_tail {c : Nat} (hc : c < 128) {r : Str} (h : r.head? = some c) : (toScalar r).tail = toScalar r.tail := by
  cases r with
  | nil => rfl
  | cons d t =>
    simp only [List.head?_cons, Option.some.injEq] at h
    subst h
    rw [toScalar_cons hc]; rfl

theorem addCreds_toScalar (url : Rec) {ui : Str} (hs : IsStr ui) : addCreds url (toScalar ui) = addCreds url ui := by
  unfold addCreds
  rw [toScalar_splitAtFirst (by decide) hs, encode_toScalar hs]
  rcases h : splitAtFirst c!":" ui with _ | ⟨a, b⟩
  · rfl
  · have e := (splitAtFirst_some h).1
    have ha : IsStr a := fun c hc => hs c (by simp [e, hc])
    have hb : IsStr b := fun c hc => hs c (by simp [e, hc])
    show _ = _
    simp only [Option.map_some, encode_toScalar ha, encode_toScalar hb]

theorem isStr_takeWhile {p : Nat → Bool} {s : Str} (h : IsStr s) : IsStr (s.takeWhile p) :=
  fun c hc => h c (List.takeWhile_subset p hc)
theorem isStr_dropWhile {p : Nat → Bool} {s : Str} (h : IsStr s) : IsStr (s.dropWhile p) :=
  fun c hc => h c (List.dropWhile_subset p hc)

theorem notEnd_wide (sp : Bool) (c : Nat) (hc : 128 ≤ c) : notEnd sp c = true := by
  unfold notEnd
  cases h : isAuthorityEnd sp c with
  | false => rfl
  | true => have := isAuthorityEnd_ascii h; omega

theorem notQF_wide (c : Nat) (hc : 128 ≤ c) : notQF c = true := by
  unfold notQF; simp; omega
theorem notHash_wide (c : Nat) (hc : 128 ≤ c) : notHash c = true := by
  unfold notHash; simp; omega
theorem notFileHostEnd_wide (c : Nat) (hc : 128 ≤ c) : notFileHostEnd c = true := by
  unfold notFileHostEnd; simp; omega
theorem isDigit_wide (c : Nat) (hc : 128 ≤ c) : isDigit c = false := by
  cases h : isDigit c with
  | false => rfl
  | true => have := isDigit_ascii h; omega
theorem isSchemeChar_wide (c : Nat) (hc : 128 ≤ c) : isSchemeChar c = false := by
  unfold isSchemeChar isAlnum isAlpha isDigit; simp; omega
theorem isSlash_wide (c : Nat) (hc : 128 ≤ c) : isSlash c = false := by
  unfold isSlash; simp; omega

theorem driveTest {t : Str} (h : isWindowsDriveLetter t = true) : ∀ c ∈ t, c < 128 := by
  unfold isWindowsDriveLetter at h
  split at h
  · next a b =>
    simp only [Bool.and_eq_true, Bool.or_eq_true, beq_iff_eq] at h
    intro c hc
    simp only [List.mem_cons, List.not_mem_nil, or_false] at hc
    have := isAlpha_ascii h.1
    rcases hc with rfl | rfl <;> omega
  · cases h

theorem startsDrive_toScalar {s : Str} (hs : IsStr s) :
    startsWithWindowsDriveLetter (toScalar s) = startsWithWindowsDriveLetter s := by
  have hw : ∀ a b, isWindowsDriveLetter [a, b] = true → a < 128 ∧ b < 128 := fun a b h =>
    ⟨driveTest h a (by simp), driveTest h b (by simp)⟩
  have hd : ∀ a b r, ¬ (a < 128 ∧ b < 128) → startsWithWindowsDriveLetter (a :: b :: r) = false := by
    intro a b r h
    unfold startsWithWindowsDriveLetter
    dsimp only
    cases e : isWindowsDriveLetter [a, b] with
    | false => rfl
    | true => exact absurd (hw a b e) h
  have h1 : ∀ a r, ¬ a < 128 → startsWithWindowsDriveLetter (a :: r) = false := by
    intro a r h
    cases r with
    | nil => rfl
    | cons b r => exact hd a b r (fun h' => h h'.1)
  match s, hs with
  | [], _ => rfl
  | a :: r, hs =>
    by_cases ha : a < 128
    · rw [toScalar_cons ha]
      match r, hs with
      | [], _ => rfl
      | b :: r, hs =>
        have hs' : IsStr (b :: r) := fun c hc => hs c (List.mem_cons_of_mem _ hc)
        by_cases hb : b < 128
        · rw [toScalar_cons hb]
          match r, hs' with
          | [], _ => rfl
          | c :: r, hs' =>
            have hs'' : IsStr (c :: r) := fun x hx => hs' x (List.mem_cons_of_mem _ hx)
            by_cases hc : c < 128
            · rw [toScalar_cons hc]; rfl
            · obtain ⟨y, t, h, hy⟩ := toScalar_head hs'' (by omega)
              rw [h]
              have key : ∀ x, 128 ≤ x → (u!"/\\?#").contains x = false := by
                intro x hx; simp; omega
              simp only [startsWithWindowsDriveLetter, key c (by omega), key y hy]
        · obtain ⟨y, t, h, hy⟩ := toScalar_head hs' (by omega)
          rw [h, hd a y t (by omega), hd a b r (by omega)]
    · obtain ⟨y, t, h, hy⟩ := toScalar_head hs (by omega)
      rw [h, h1 y t (by omega), h1 a r ha]

/-- case analysis on the first character of a text and of its paired form -/
theorem first_cases {s : Str} (hs : IsStr s) :
    s = [] ∨ (∃ c r, s = c :: r ∧ c < 128 ∧ toScalar s = c :: toScalar r) ∨
      ∃ c r y t, s = c :: r ∧ 128 ≤ c ∧ toScalar s = y :: t ∧ 128 ≤ y := by
  cases s with
  | nil => exact .inl rfl
  | cons c r =>
    by_cases hc : c < 128
    · exact .inr (.inl ⟨c, r, rfl, hc, toScalar_cons hc r⟩)
    · obtain ⟨y, t, h, hy⟩ := toScalar_head hs (by omega)
      exact .inr (.inr ⟨c, r, y, t, rfl, by omega, h, hy⟩)

/-! ### The states -/

section
variable (env : Env) (e : Encoding) (base : Option Rec) (ov : Option PState)

theorem scal_authority {r : Str} (hs : IsStr r) (url : Rec) :
    sAuthority (toScalar r) url = (sAuthority r url).scal := by
  unfold sAuthority
  have h := toScalar_span (notEnd_wide url.isSpecial) hs
  rw [h.1, h.2]
  dsimp only
  rw [toScalar_splitAtLast (by decide) (isStr_takeWhile hs)]
  rcases hl : splitAtLast c!"@" (r.takeWhile (notEnd url.isSpecial)) with _ | ⟨a, b⟩
  · rfl
  · have he := (splitAtLast_some hl).1
    have hm : IsStr (r.takeWhile (notEnd url.isSpecial)) := isStr_takeWhile hs
    have ha : IsStr a := fun c hc => hm c (by rw [he]; simp [hc])
    have hb : IsStr b := fun c hc => hm c (by rw [he]; simp [hc])
    simp only [Option.map_some]
    rw [toScalar_isEmpty hb, addCreds_toScalar url ha, scal_ite]
    congr 1
    show SOut.to .host _ _ = SOut.to .host _ _
    congr 1
    have hd := h.2
    cases hdw : r.dropWhile (notEnd url.isSpecial) with
    | nil => simp
    | cons c cs =>
      have hc : c < 128 := by
        have := List.head?_dropWhile_not (notEnd url.isSpecial) r
        rw [hdw] at this
        by_cases hc : c < 128
        · exact hc
        · simp [notEnd_wide url.isSpecial c (by omega)] at this
      rw [toScalar_append hc, toScalar_cons hc]

theorem scal_hostEnd (b : Bool) {x : Str} (hx : IsStr x) (r : Str) (url : Rec) :
    sHostEnd env b (toScalar x) (toScalar r) url = (sHostEnd env b x r url).scal := by
  unfold sHostEnd
  rw [toScalar_isEmpty hx, hostParse_toScalar env _ hx, scal_ite, scal_ite]
  congr 1
  congr 1
  cases (hostParse env x (!url.isSpecial)).res <;> rfl

theorem scal_host {r : Str} (hs : IsStr r) (url : Rec) : sHost env ov (toScalar r) url = (sHost env ov r url).scal := by
  unfold sHost
  rw [scal_ite]
  congr 1
  rw [toScalar_hostSpan _ _ hs]
  dsimp only
  obtain ⟨a, b, j, he, h1, h2, h3⟩ := hostSpan_split url.isSpecial r false
  rw [h1]
  dsimp only
  have ha : IsStr a := fun c hc => hs c (by rw [he]; simp [hc])
  have hb : IsStr b := fun c hc => hs c (by rw [he]; simp [hc])
  cases b with
  | nil => exact scal_hostEnd env _ ha [] url
  | cons c cs =>
    have hc : c < 128 := by
      rcases h3 c rfl with h | h
      · omega
      · exact isAuthorityEnd_ascii h
    have hend := scal_hostEnd env ov.isSome ha (c :: cs) url
    rw [toScalar_cons hc] at hend ⊢
    unfold sHostGo
    dsimp only
    rw [toScalar_isEmpty ha, hostParse_toScalar env _ ha, hend, scal_ite, scal_ite, scal_ite]
    congr 1
    congr 1
    rw [scal_to, toScalar_cons hc]
    congr 1
    cases (hostParse env a (!url.isSpecial)).res <;> rfl

theorem scal_portEnd (b : Bool) (x : Str) (r : Str) (url : Rec) :
    sPortEnd env b x (toScalar r) url = (sPortEnd env b x r url).scal := by
  unfold sPortEnd
  dsimp only
  rw [scal_ite]
  congr 1
  cases pyInt env 10 x with
  | none => rfl
  | some v => dsimp only; rw [scal_ite]; rfl

theorem scal_port {r : Str} (hs : IsStr r) (url : Rec) : sPort env ov (toScalar r) url = (sPort env ov r url).scal := by
  unfold sPort
  have h := toScalar_ascii_span isDigit_wide hs
  rw [h.1, h.2]
  have hr : IsStr (r.dropWhile isDigit) := isStr_dropWhile hs
  generalize r.takeWhile isDigit = x at *
  generalize r.dropWhile isDigit = t at *
  have key := scal_portEnd env ov.isSome x t url
  rcases first_cases hr with rfl | ⟨c, cs, rfl, hc, e1⟩ | ⟨c, cs, y, ys, rfl, hc, e1, hy⟩
  · exact key
  · rw [e1] at key ⊢
    unfold sPortGo
    dsimp only
    rw [key, scal_ite]; rfl
  · rw [e1] at key ⊢
    unfold sPortGo
    dsimp only
    have hn : ∀ d, 128 ≤ d → isAuthorityEnd url.isSpecial d = false := by
      intro d hd
      cases h : isAuthorityEnd url.isSpecial d with
      | false => rfl
      | true => have := isAuthorityEnd_ascii h; omega
    rw [key, hn c hc, hn y hy, scal_ite]; rfl

theorem scal_filePath {r : Str} (hs : IsStr r) (url : Rec) :
    sFilePath base (toScalar r) url = (sFilePath base r url).scal := by
  have hd := startsDrive_toScalar hs
  unfold sFilePath
  cases base with
  | none => rfl
  | some b =>
    dsimp only
    rw [scal_ite]
    congr 1
    rcases first_cases hs with rfl | ⟨c, cs, rfl, hc, e1⟩ | ⟨c, cs, y, ys, rfl, hc, e1, hy⟩
    · rfl
    · rw [e1] at hd ⊢
      dsimp only
      simp only [hd, scal_ite, scal_to, e1]
      congr 1
      congr 1
      congr 1
      cases shortenRec _ <;> simp [e1]
    · rw [e1] at hd ⊢
      dsimp only
      rw [if_neg (show ¬ y = _ by omega), if_neg (show ¬ y = _ by omega), if_neg (show ¬ c = _ by omega),
        if_neg (show ¬ c = _ by omega), hd]
      simp only [scal_ite, scal_to, e1]
      congr 1
      cases shortenRec _ <;> simp [e1]

theorem scal_file {r : Str} (hs : IsStr r) (url : Rec) : sFile base (toScalar r) url = (sFile base r url).scal := by
  have hk := scal_filePath base hs { url with scheme := u!"file", host := some (.str []) }
  unfold sFile
  rcases first_cases hs with rfl | ⟨c, cs, rfl, hc, e1⟩ | ⟨c, cs, y, ys, rfl, hc, e1, hy⟩
  · exact hk
  · rw [e1] at hk ⊢
    dsimp only
    rw [scal_ite, hk]; rfl
  · rw [e1] at hk ⊢
    dsimp only
    rw [if_neg (by simp; omega), if_neg (by simp; omega), hk]

theorem scal_fileSlashPath {r : Str} (hs : IsStr r) (url : Rec) :
    sFileSlashPath base (toScalar r) url = (sFileSlashPath base r url).scal := by
  unfold sFileSlashPath
  cases base with
  | none => rfl
  | some b =>
    dsimp only
    rw [scal_ite]
    congr 1
    split
    · rw [startsDrive_toScalar hs, scal_ite]
      congr 1
      split <;> rfl
    · rfl

theorem scal_fileSlash {r : Str} (hs : IsStr r) (url : Rec) :
    sFileSlash base (toScalar r) url = (sFileSlash base r url).scal := by
  have hk := scal_fileSlashPath base hs url
  unfold sFileSlash
  rcases first_cases hs with rfl | ⟨c, cs, rfl, hc, e1⟩ | ⟨c, cs, y, ys, rfl, hc, e1, hy⟩
  · exact hk
  · rw [e1] at hk ⊢
    dsimp only
    rw [scal_ite, hk]; rfl
  · rw [e1] at hk ⊢
    dsimp only
    rw [if_neg (by simp; omega), if_neg (by simp; omega), hk]

theorem scal_fileHost {r : Str} (hs : IsStr r) (url : Rec) :
    sFileHost env ov (toScalar r) url = (sFileHost env ov r url).scal := by
  unfold sFileHost
  have h := toScalar_span notFileHostEnd_wide hs
  rw [h.1, h.2]
  unfold sFileHostEnd
  have hx : IsStr (r.takeWhile notFileHostEnd) := isStr_takeWhile hs
  rw [asciiTest (f := isWindowsDriveLetter) (fun _ => driveTest) hx, toScalar_isEmpty hx, hostParse_toScalar env _ hx,
    scal_ite, scal_ite, scal_to, ← h.1, ← h.2, List.takeWhile_append_dropWhile, List.takeWhile_append_dropWhile, h.2]
  congr 1
  congr 1
  cases (hostParse env (r.takeWhile notFileHostEnd) (!url.isSpecial)).res <;> rfl

theorem headEq {c : Nat} (hc : c < 128) {s : Str} (hs : IsStr s) :
    ((toScalar s).head? == some c) = (s.head? == some c) := by
  rw [Bool.eq_iff_iff, beq_iff_eq, beq_iff_eq, head_toScalar hc hs]

theorem scal_noScheme {r : Str} (hs : IsStr r) (url : Rec) :
    sNoScheme base (toScalar r) url = (sNoScheme base r url).scal := by
  unfold sNoScheme
  cases base with
  | none => rfl
  | some b =>
    dsimp only
    rw [headEq (by decide) hs, scal_ite, scal_ite, scal_ite, scal_to, scal_to, scal_to]
    by_cases h : r.head? = some 35
    · rw [toScalar_tail (by decide) h]; rfl
    · cases hb : b.hasOpaquePath with
      | true =>
        have : (r.head? == some 35) = false := by simpa using h
        rw [this]; rfl
      | false => rfl

theorem scal_relative {r : Str} (hs : IsStr r) (url : Rec) :
    sRelative base (toScalar r) url = (sRelative base r url).scal := by
  unfold sRelative
  cases base with
  | none => rfl
  | some b =>
    dsimp only
    rw [scal_ite]
    congr 1
    rcases first_cases hs with rfl | ⟨c, cs, rfl, hc, e1⟩ | ⟨c, cs, y, ys, rfl, hc, e1, hy⟩
    · rfl
    · rw [e1]
      dsimp only
      rw [scal_ite, scal_ite, scal_ite]
      congr 1
      congr 1
      congr 1
      cases shortenRec _ <;> simp [e1]
    · rw [e1]
      dsimp only
      rw [if_neg (by simp; omega), if_neg (by omega), if_neg (by omega), if_neg (by simp; omega), if_neg (by omega), if_neg (by omega)]
      cases shortenRec _ <;> simp [e1]

theorem scal_relativeSlash {r : Str} (hs : IsStr r) (url : Rec) :
    sRelativeSlash base (toScalar r) url = (sRelativeSlash base r url).scal := by
  unfold sRelativeSlash
  dsimp only
  have h1 := head_toScalar (c := 92) (by decide) hs
  have h2 := head_toScalar (c := 47) (by decide) hs
  simp only [h1, h2]
  rw [scal_ite, scal_ite, scal_to, scal_to]
  by_cases h : r.head? = some 92 ∨ r.head? = some 47
  · have ht : (toScalar r).tail = toScalar r.tail := by
      rcases h with h | h <;> exact toScalar_tail (by decide) h
    rw [ht]
    congr 1
    congr 1
    cases base <;> rfl
  · have e1 : r.head? ≠ some 92 := fun h' => h (.inl h')
    have e2 : r.head? ≠ some 47 := fun h' => h (.inr h')
    simp only [e1, e2, decide_false, Bool.or_self, Bool.and_false, Bool.false_eq_true, if_false]
    cases base <;> rfl

theorem scal_afterPath (st : PState) {r : Str} (hr : ∀ c, r.head? = some c → c < 128) (url : Rec) :
    afterPath st (toScalar r) url = (afterPath st r url).scal := by
  cases r with
  | nil => rfl
  | cons c cs =>
    rw [toScalar_cons (hr c rfl)]
    unfold afterPath
    dsimp only
    rw [scal_ite]; rfl

theorem dropQF_head {r : Str} {c : Nat} (h : (r.dropWhile notQF).head? = some c) : c < 128 := by
  have := List.head?_dropWhile_not notQF r
  rw [h] at this
  by_cases hc : c < 128
  · exact hc
  · simp [notQF_wide c (by omega)] at this

theorem addPieces_toScalar (sc : Str) (ps : List Str) (h : ∀ p ∈ ps, IsStr p) : ∀ path,
    addPieces sc path (ps.map toScalar) = addPieces sc path ps := by
  have hseg : ∀ p, IsStr p → ∀ path b, addSegment sc path (toScalar p) b = addSegment sc path p b := by
    intro p hp path b
    unfold addSegment
    rw [encode_toScalar hp]
  induction ps with
  | nil => intro path; rfl
  | cons p ps ih =>
    intro path
    cases ps with
    | nil => exact hseg p (h p (by simp)) path false
    | cons q qs =>
      have := ih (fun x hx => h x (by simp [hx])) (addSegment sc path p true)
      simp only [List.map_cons, addPieces] at this ⊢
      rw [hseg p (h p (by simp)), this]

theorem mem_pathPieces {sp : Bool} (s : Str) : ∀ p ∈ pathPieces sp s, ∀ c ∈ p, c ∈ s := by
  induction s with
  | nil => intro p hp c hc; simp [pathPieces] at hp; subst hp; exact hc
  | cons x xs ih =>
    intro p hp c hc
    unfold pathPieces at hp
    split at hp
    · rcases List.mem_cons.1 hp with rfl | hp
      · exact absurd hc (by simp)
      · exact List.mem_cons_of_mem _ (ih p hp c hc)
    · cases h : pathPieces sp xs with
      | nil =>
        rw [h] at hp
        simp only [List.mem_cons, List.not_mem_nil, or_false] at hp
        subst hp
        simp at hc; simp [hc]
      | cons q qs =>
        rw [h] at hp ih
        simp only [List.mem_cons] at hp
        rcases hp with rfl | hp
        · rcases List.mem_cons.1 hc with rfl | hc
          · simp
          · exact List.mem_cons_of_mem _ (ih q (by simp) c hc)
        · exact List.mem_cons_of_mem _ (ih p (by simp [hp]) c hc)

theorem scal_path {r : Str} (hs : IsStr r) (url : Rec) : sPath ov (toScalar r) url = (sPath ov r url).scal := by
  unfold sPath
  cases hp : url.path with
  | «opaque» t => rfl
  | list p =>
    dsimp only
    have h := toScalar_span notQF_wide hs
    have h1 : pathText ov.isSome (toScalar r) = toScalar (pathText ov.isSome r) := by
      unfold pathText; rw [h.1]; split <;> rfl
    have h2 : pathRest ov.isSome (toScalar r) = toScalar (pathRest ov.isSome r) := by
      unfold pathRest; rw [h.2]; split <;> rfl
    have h3 : IsStr (pathText ov.isSome r) := by
      unfold pathText; split
      · exact hs
      · exact isStr_takeWhile hs
    rw [h1, h2, toScalar_pathPieces _ h3, addPieces_toScalar _ _ (fun p hp c hc => h3 c (mem_pathPieces _ p hp c hc))]
    refine scal_afterPath _ ?_ _
    intro c hc
    unfold pathRest at hc
    split at hc
    · simp at hc
    · exact dropQF_head hc

theorem scal_pathOrAuthority {r : Str} (hs : IsStr r) (url : Rec) :
    sPathOrAuthority (toScalar r) url = (sPathOrAuthority r url).scal := by
  unfold sPathOrAuthority
  have hk := head_toScalar (c := 47) (by decide) hs
  by_cases h : r.head? = some 47
  · rw [if_pos h, if_pos (hk.2 h), toScalar_tail (by decide) h]; rfl
  · rw [if_neg h, if_neg (mt hk.1 h)]; rfl

theorem scal_pathStart {r : Str} (hs : IsStr r) (url : Rec) :
    sPathStart ov (toScalar r) url = (sPathStart ov r url).scal := by
  unfold sPathStart
  rcases first_cases hs with rfl | ⟨c, cs, rfl, hc, e1⟩ | ⟨c, cs, y, ys, rfl, hc, e1, hy⟩
  · dsimp only [toScalar_nil]
    rw [scal_ite, scal_ite]
    congr 1
    congr 1
    cases url.path <;> rfl
  · rw [e1]
    dsimp only
    simp only [scal_ite, scal_to, e1]
  · rw [e1]
    dsimp only
    have hn : ∀ d, 128 ≤ d → isPathSep url.isSpecial d = false := by
      intro d hd
      cases h : isPathSep url.isSpecial d with
      | false => rfl
      | true => have := isPathSep_ascii h; omega
    rw [hn c hc, hn y hy]
    simp only [Bool.false_eq_true, if_false]
    have k1 : ∀ d k : Nat, 128 ≤ d → k < 128 → (ov.isNone && decide (d = k)) = false := by
      intro d k h1 h2
      have : d ≠ k := by omega
      simp [this]
    rw [k1 c _ hc (by decide), k1 c _ hc (by decide), k1 y _ hy (by decide), k1 y _ hy (by decide)]
    simp only [Bool.false_eq_true, if_false]
    rw [scal_ite, scal_to, e1]

theorem stringPercentEncode_toScalar {s : Str} (hs : IsStr s) (safe : Nat → Bool) (enc : Encoding) (b : Bool) :
    stringPercentEncode (toScalar s) safe enc b = stringPercentEncode s safe enc b := by
  unfold stringPercentEncode
  rw [toScalar_idem hs]

theorem scal_query {r : Str} (hs : IsStr r) (url : Rec) : sQuery e ov (toScalar r) url = (sQuery e ov r url).scal := by
  unfold sQuery
  dsimp only
  have h := toScalar_span notHash_wide hs
  have h1 : queryText ov.isSome (toScalar r) = toScalar (queryText ov.isSome r) := by
    unfold queryText; rw [h.1]; split <;> rfl
  have h2 : queryRest ov.isSome (toScalar r) = toScalar (queryRest ov.isSome r) := by
    unfold queryRest; rw [h.2]; split <;> rfl
  have h3 : IsStr (queryText ov.isSome r) := by
    unfold queryText; split
    · exact hs
    · exact isStr_takeWhile hs
  have h4 : IsStr (queryRest ov.isSome r) := by
    unfold queryRest; split
    · intro c hc; simp at hc
    · exact isStr_dropWhile hs
  have h5 : (toScalar (queryRest ov.isSome r)).tail = toScalar (queryRest ov.isSome r).tail := by
    unfold queryRest
    split
    · rfl
    · cases hd : r.dropWhile notHash with
      | nil => rfl
      | cons c cs =>
        have hc : c < 128 := by
          have := List.head?_dropWhile_not notHash r
          rw [hd] at this
          by_cases hc : c < 128
          · exact hc
          · simp [notHash_wide c (by omega)] at this
        rw [toScalar_cons hc]; rfl
  rw [h1, h2, toScalar_isEmpty h3, toScalar_isEmpty h4, h5, scal_ite]
  have h6 : encodeQuery e url (toScalar (queryText ov.isSome r)) = encodeQuery e url (queryText ov.isSome r) := by
    unfold encodeQuery; rw [stringPercentEncode_toScalar h3]
  congr 1
  cases url.query with
  | none => rfl
  | some q => dsimp only; rw [h6]; rfl

theorem scal_fragment {r : Str} (hs : IsStr r) (url : Rec) : sFragment (toScalar r) url = (sFragment r url).scal := by
  unfold sFragment
  rw [toScalar_isEmpty hs, encode_toScalar hs, scal_ite]
  congr 1
  cases url.fragment <;> rfl

theorem takeScheme_toScalar {r : Str} (hs : IsStr r) :
    takeScheme (toScalar r) = (takeScheme r).map fun p => (p.1, toScalar p.2) := by
  unfold takeScheme
  rcases first_cases hs with rfl | ⟨c, cs, rfl, hc, e1⟩ | ⟨c, cs, y, ys, rfl, hc, e1, hy⟩
  · rfl
  · rw [e1]
    dsimp only
    have hcs : IsStr cs := fun d hd => hs d (by simp [hd])
    have h := toScalar_ascii_span isSchemeChar_wide hcs
    rw [h.1, h.2]
    split
    · rfl
    · have hd : IsStr (cs.dropWhile isSchemeChar) := isStr_dropWhile hcs
      generalize cs.dropWhile isSchemeChar = t at *
      rcases first_cases hd with rfl | ⟨d, ds, rfl, hd', e2⟩ | ⟨d, ds, z, zs, rfl, hd', e2, hz⟩
      · rfl
      · rw [e2]
        dsimp only
        split <;> rfl
      · rw [e2]
        dsimp only
        rw [if_neg (by omega), if_neg (by omega)]; rfl
  · rw [e1]
    dsimp only
    have hn : ∀ d, 128 ≤ d → isAlpha d = false := by
      intro d hd
      cases h : isAlpha d with
      | false => rfl
      | true => have := isAlpha_ascii h; omega
    rw [hn c hc, hn y hy]; rfl

theorem takeScheme_suffix {r : Str} {b t : Str} (h : takeScheme r = some (b, t)) : t <:+ r := by
  unfold takeScheme at h
  cases r with
  | nil => cases h
  | cons c cs =>
    dsimp only at h
    split at h
    · cases h
    · cases hd : cs.dropWhile isSchemeChar with
      | nil => rw [hd] at h; cases h
      | cons d ds =>
        rw [hd] at h
        dsimp only at h
        split at h
        · simp only [Option.some.injEq, Prod.mk.injEq] at h
          have h1 : (d :: ds) <:+ cs := hd ▸ List.dropWhile_suffix _
          rw [← h.2]
          exact ((List.suffix_cons d ds).trans h1).trans (List.suffix_cons c cs)
        · cases h

theorem isStr_of_suffix {a b : Str} (h : a <:+ b) (hb : IsStr b) : IsStr a := fun c hc => hb c (h.subset hc)

theorem scal_scheme {r : Str} (hs : IsStr r) (url : Rec) :
    sScheme base ov (toScalar r) url = (sScheme base ov r url).scal := by
  unfold sScheme
  rw [takeScheme_toScalar hs]
  rcases h : takeScheme r with _ | ⟨b, t⟩
  · dsimp only [Option.map_none]
    rw [scal_ite]; rfl
  · have ht : IsStr t := isStr_of_suffix (takeScheme_suffix h) hs
    dsimp only [Option.map_some]
    rw [scal_ite, scal_ite, scal_ite, scal_ite, scal_ite]
    have hk := head_toScalar (c := 47) (by decide) ht
    congr 1
    congr 1
    congr 1
    by_cases hh : t.head? = some 47
    · rw [if_pos hh, if_pos (hk.2 hh), toScalar_tail (by decide) hh]; rfl
    · rw [if_neg hh, if_neg (mt hk.1 hh)]; rfl

theorem take2_toScalar {r : Str} (hs : IsStr r) :
    ((toScalar r).take 2 = u!"//" ↔ r.take 2 = u!"//") ∧ (r.take 2 = u!"//" → (toScalar r).drop 2 = toScalar (r.drop 2)) := by
  match r, hs with
  | [], _ => exact ⟨by simp, by simp⟩
  | a :: r, hs =>
    by_cases ha : a = 47
    · subst ha
      rw [toScalar_cons (by decide)]
      have hr : IsStr r := fun d hd => hs d (by simp [hd])
      rcases first_cases hr with rfl | ⟨c, cs, rfl, hc, e1⟩ | ⟨c, cs, y, ys, rfl, hc, e1, hy⟩
      · simp
      · rw [e1]; simp
      · rw [e1]
        have : ¬ c = 47 := by omega
        have : ¬ y = 47 := by omega
        simp [*]
    · have h1 : (a :: r).take 2 ≠ u!"//" := by
        intro h; cases r <;> simp at h; exact ha h.1
      have h2 : (toScalar (a :: r)).take 2 ≠ u!"//" := by
        intro h
        have hh : (toScalar (a :: r)).head? = some 47 := by
          cases ht : toScalar (a :: r) with
          | nil => rw [ht] at h; simp at h
          | cons x xs => rw [ht] at h; simp at h; simp [h.1]
        rw [head_toScalar (by decide) hs] at hh
        simp at hh; exact ha hh
      exact ⟨⟨fun h => absurd h h2, fun h => absurd h h1⟩, fun h => absurd h h1⟩

/-- no high surrogate is followed by a low one -/
def NoPair (s : Str) : Prop := ∀ x y a b, s = x ++ a :: b :: y → ¬ (isHigh a = true ∧ isLow b = true)

theorem NoPair.suffix {a b : Str} (h : NoPair b) (hs : a <:+ b) : NoPair a := by
  obtain ⟨p, rfl⟩ := hs
  intro x y c d e
  exact h (p ++ x) y c d (by rw [e]; simp)

theorem NoPair.takeWhile {p : Nat → Bool} {b : Str} (h : NoPair b) : NoPair (b.takeWhile p) := by
  intro x y c d e
  refine h x (y ++ b.dropWhile p) c d ?_
  have := List.takeWhile_append_dropWhile (p := p) (l := b)
  rw [e] at this
  exact this.symm.trans (by simp)

/-- an unpaired surrogate becomes U+FFFD -/
def lone (c : Nat) : Nat := if Surrogate c then 0xFFFD else c

theorem NoPair.toScalar {s : Str} (h : NoPair s) (hs : IsStr s) : Urlstd.toScalar s = s.map lone := by
  rw [toScalar_eq_combine s hs]
  fun_induction combineSurrogates s with
  | case1 => rfl
  | case2 a h' => simp [lone, h']
  | case3 a h' => simp [lone, h']
  | case4 a b rest h' ih =>
    exact absurd (by simp only [isHigh, isLow, Bool.and_eq_true, decide_eq_true_eq]; omega) (h [] rest a b rfl)
  | case5 a b rest h1 h2 ih =>
    rw [ih (h.suffix (List.suffix_cons _ _)) (fun c hc => hs c (by simp [hc]))]
    simp [lone, h2]
  | case6 a b rest h1 h2 ih =>
    rw [ih (h.suffix (List.suffix_cons _ _)) (fun c hc => hs c (by simp [hc]))]
    simp [lone, h2]

theorem encode_lone {c : Nat} (hc : c ≤ 0x10FFFF) (safe : Nat → Bool) :
    utf8PercentEncode [lone c] safe = utf8PercentEncode [c] safe := by
  have h1 : IsStr [c] := by intro d hd; simp at hd; omega
  have h2 : NoPair [c] := by
    intro x y a b e
    have := congrArg List.length e
    simp at this; omega
  have := h2.toScalar h1
  rw [← encode_toScalar h1, this]; rfl

theorem scal_opaquePath {r : Str} (hs : IsStr r) (hn : NoPair (r.takeWhile notQF)) (url : Rec) :
    sOpaquePath (toScalar r) url = (sOpaquePath r url).scal := by
  unfold sOpaquePath
  have h := toScalar_span notQF_wide hs
  have hx : IsStr (r.takeWhile notQF) := isStr_takeWhile hs
  rw [h.1, h.2, hn.toScalar hx]
  have he : ((r.takeWhile notQF).map lone).flatMap (fun c => utf8PercentEncode [c] safeC0) =
      (r.takeWhile notQF).flatMap fun c => utf8PercentEncode [c] safeC0 := by
    rw [List.flatMap_map]
    refine flatMap_congr_mem ?_
    intro c hc
    exact encode_lone (hx c hc) safeC0
  rw [he]
  exact scal_afterPath _ (fun c hc => dropQF_head hc) _

theorem sstep_scal {st : PState} {r : Str} (hs : IsStr r) (h : st = .opaquePath → NoPair (r.takeWhile notQF)) (url : Rec) :
    sstep env e base ov st (toScalar r) url = (sstep env e base ov st r url).scal := by
  cases st
  case eof => rfl
  case scheme => rfl
  case authority => exact scal_authority hs url
  case fileHost => exact scal_fileHost env ov hs url
  case fileSlash => exact scal_fileSlash base hs url
  case file => exact scal_file base hs url
  case fragment => exact scal_fragment hs url
  case hostname => exact scal_host env ov hs url
  case host => exact scal_host env ov hs url
  case noScheme => exact scal_noScheme base hs url
  case opaquePath => exact scal_opaquePath hs (h rfl) url
  case pathOrAuthority => exact scal_pathOrAuthority hs url
  case pathStart => exact scal_pathStart ov hs url
  case path => exact scal_path ov hs url
  case port => exact scal_port env ov hs url
  case query => exact scal_query e ov hs url
  case relativeSlash => exact scal_relativeSlash base hs url
  case relative => exact scal_relative base hs url
  case schemeStart => exact scal_scheme base ov hs url
  case specialAuthorityIgnoreSlashes =>
    show SOut.to _ _ _ = SOut.to _ _ _
    rw [(toScalar_ascii_span isSlash_wide hs).2]
  case specialAuthoritySlashes =>
    show sSpecialAuthoritySlashes _ _ = (sSpecialAuthoritySlashes _ _).scal
    unfold sSpecialAuthoritySlashes
    have ht := take2_toScalar hs
    by_cases h2 : r.take 2 = u!"//"
    · rw [if_pos h2, if_pos (ht.1.2 h2), ht.2 h2]; rfl
    · rw [if_neg h2, if_neg (mt ht.1.1 h2)]; rfl
  case specialRelativeOrAuthority =>
    show sSpecialRelativeOrAuthority _ _ = (sSpecialRelativeOrAuthority _ _).scal
    unfold sSpecialRelativeOrAuthority
    have ht := take2_toScalar hs
    by_cases h2 : r.take 2 = u!"//"
    · rw [if_pos h2, if_pos (ht.1.2 h2), ht.2 h2]; rfl
    · rw [if_neg h2, if_neg (mt ht.1.1 h2)]; rfl

end

end Urlstd
