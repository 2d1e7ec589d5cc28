/-
The states from the authority on, for a text that is put together from its parts.
-/
import Verif.Spec.Anatomy
import Verif.Lemmas.Rfc3986
import Verif.Lemmas.Slashes
import Verif.Lemmas.SchemeStart
import Verif.Lemmas.AnyBase

set_option linter.unusedSimpArgs false

namespace Urlstd

open Spec (IsStr SchemeText AuthorityEnd InBrackets Parts)

/-! ### Brackets -/

/-- whether the host state is inside brackets behind a text -/
def bracketAfter (inside : Bool) (s : Str) : Bool :=
  s.foldl (fun b c => if c = 91 then true else if c = 93 then false else b) inside

theorem InBrackets_cons {c : Nat} {s : Str} : InBrackets (c :: s) ↔ InBrackets s ∨ (c = 91 ∧ 93 ∉ s) := by
  constructor
  · rintro ⟨a, b, h, hb⟩
    cases a with
    | nil =>
      simp only [List.nil_append, List.cons_append, List.cons.injEq] at h
      exact .inr ⟨h.1, h.2 ▸ hb⟩
    | cons x xs =>
      simp only [List.append_assoc, List.cons_append, List.cons.injEq] at h
      exact .inl ⟨xs, b, by rw [h.2]; simp, hb⟩
  · rintro (⟨a, b, rfl, hb⟩ | ⟨rfl, hb⟩)
    · exact ⟨c :: a, b, by simp, hb⟩
    · exact ⟨[], s, rfl, hb⟩

theorem not_InBrackets_nil : ¬ InBrackets [] := by
  rintro ⟨a, b, h, -⟩
  simp at h

theorem bracketAfter_iff (s : Str) : ∀ inside, bracketAfter inside s = true ↔
    InBrackets s ∨ (inside = true ∧ 93 ∉ s) := by
  induction s with
  | nil => intro i; simp [bracketAfter, not_InBrackets_nil]
  | cons c s ih =>
    intro i
    show bracketAfter _ s = true ↔ _
    rw [ih, InBrackets_cons]
    by_cases h1 : c = 91
    · subst h1
      simp
      exact fun _ h => .inr h
    · dsimp only
      rw [if_neg h1]
      by_cases h2 : c = 93
      · subst h2; simp
      · rw [if_neg h2]
        have : ¬ (93 = c) := fun h => h2 h.symm
        simp [h1, this]

theorem bracketAfter_false (s : Str) : bracketAfter false s = true ↔ InBrackets s := by
  rw [bracketAfter_iff]; simp

theorem authorityEnd_iff {sp : Bool} {c : Nat} : isAuthorityEnd sp c = true ↔ AuthorityEnd sp c := by
  simp [isAuthorityEnd, AuthorityEnd, or_assoc]

theorem notEnd_spec {sp : Bool} {c : Nat} (h : ¬ AuthorityEnd sp c) : notEnd sp c = true := by
  unfold notEnd
  rw [← authorityEnd_iff] at h
  simpa using h

/-- the host extends to the first ":" outside brackets or the end of the authority -/
theorem hostSpan_parts {sp : Bool} (h : Str) : ∀ (inside : Bool) (r : Str), (∀ c ∈ h, ¬ AuthorityEnd sp c) →
    (∀ a b, h = a ++ 58 :: b → bracketAfter inside a = true) →
    (∀ c, r.head? = some c → AuthorityEnd sp c ∨ (c = 58 ∧ bracketAfter inside h = false)) →
    hostSpan sp inside (h ++ r) = (h, r) := by
  induction h with
  | nil =>
    intro i r _ _ hr
    cases r with
    | nil => rfl
    | cons c cs =>
      rw [List.nil_append]
      unfold hostSpan
      rw [if_pos]
      rcases hr c rfl with h | ⟨rfl, h⟩
      · simp [authorityEnd_iff.2 h]
      · have : i = false := h
        simp [this]
  | cons c cs ih =>
    intro i r h1 h2 hr
    rw [List.cons_append]
    unfold hostSpan
    have hne := h1 c (by simp)
    rw [← authorityEnd_iff] at hne
    rw [if_neg]
    · dsimp only
      rw [ih]
      · exact fun x hx => h1 x (by simp [hx])
      · intro a b hab
        have := h2 (c :: a) b (by rw [hab]; rfl)
        exact this
      · intro x hx
        exact hr x hx
    · intro hc
      simp only [Bool.or_eq_true, Bool.and_eq_true, decide_eq_true_eq, Bool.not_eq_true'] at hc
      rcases hc with ⟨rfl, hi⟩ | hc
      · have := h2 [] cs rfl
        rw [show bracketAfter i [] = i from rfl, hi] at this
        cases this
      · exact hne hc

/-! ### Paths -/

theorem segmentsOf_eq (sp : Bool) (t : Str) : Spec.segmentsOf sp t = pathPieces sp t := by
  induction t with
  | nil => rfl
  | cons c cs ih =>
    unfold Spec.segmentsOf pathPieces
    rw [ih]
    have : (c = 47 ∨ (sp = true ∧ c = 92)) ↔ isPathSep sp c = true := by simp [isPathSep]
    by_cases h : isPathSep sp c = true
    · rw [if_pos h, if_pos (this.2 h)]
    · rw [if_neg h, if_neg (mt this.1 h)]
      cases pathPieces sp cs <;> rfl

theorem pathPieces_mem {sp : Bool} {t : Str} : ∀ s ∈ pathPieces sp t, ∀ c ∈ s, c ∈ t := by
  induction t with
  | nil => intro s hs; simp [pathPieces] at hs; subst hs; simp
  | cons x xs ih =>
    intro s hs c hc
    unfold pathPieces at hs
    split at hs
    · rcases List.mem_cons.1 hs with rfl | hs
      · cases hc
      · exact List.mem_cons_of_mem _ (ih s hs c hc)
    · split at hs
      · next h => simp at hs; subst hs; simpa using .inl (by simpa using hc)
      · next p ps h =>
        rcases List.mem_cons.1 hs with rfl | hs
        · rcases List.mem_cons.1 hc with rfl | hc
          · exact .head _
          · exact List.mem_cons_of_mem _ (ih p (by rw [h]; simp) c hc)
        · exact List.mem_cons_of_mem _ (ih s (by rw [h]; simp [hs]) c hc)

theorem pathEncode_eq {s : Str} (hs : IsStr s) : utf8PercentEncode s safePath = Spec.Rfc.pathEncode s :=
  utf8PercentEncode_spec hs (by decide +kernel)

theorem userinfoEncode_eq {s : Str} (hs : IsStr s) : utf8PercentEncode s safeUserinfo = Spec.userinfoEncode s :=
  utf8PercentEncode_spec hs (by decide +kernel)

/-- dot segments are recognized before and after percent-encoding -/
theorem encoded_dots {s : Str} (hs : IsStr s) : isSingleDot (utf8PercentEncode s safePath) = isSingleDot s ∧
    isDoubleDot (utf8PercentEncode s safePath) = isDoubleDot s := by
  constructor
  · rw [Bool.eq_iff_iff]
    constructor
    · intro h
      unfold isSingleDot at h
      rw [List.contains_iff_mem] at h
      simp only [List.mem_cons, List.not_mem_nil, or_false] at h
      rcases h with h | h | h
      · rw [encode_dotsOnly hs (.char (by decide) .nil) (by decide) (by decide) h]; decide
      · rw [encode_dotsOnly hs (.dot (.inl rfl) .nil) (by decide) (by decide) h]; decide
      · rw [encode_dotsOnly hs (.dot (.inr rfl) .nil) (by decide) (by decide) h]; decide
    · intro h
      unfold isSingleDot at h
      rw [List.contains_iff_mem] at h
      simp only [List.mem_cons, List.not_mem_nil, or_false] at h
      rcases h with rfl | rfl | rfl <;> decide +kernel
  · rw [Bool.eq_iff_iff]
    constructor
    · intro h
      unfold isDoubleDot at h
      rw [List.contains_iff_mem] at h
      simp only [List.mem_cons, List.not_mem_nil, or_false] at h
      rcases h with h | h | h | h | h | h | h | h | h
      · rw [encode_dotsOnly hs (.char (by decide) (.char (by decide) .nil)) (by decide) (by decide) h]; decide
      · rw [encode_dotsOnly hs (.char (by decide) (.dot (.inl rfl) .nil)) (by decide) (by decide) h]; decide
      · rw [encode_dotsOnly hs (.char (by decide) (.dot (.inr rfl) .nil)) (by decide) (by decide) h]; decide
      · rw [encode_dotsOnly hs (.dot (.inl rfl) (.char (by decide) .nil)) (by decide) (by decide) h]; decide
      · rw [encode_dotsOnly hs (.dot (.inr rfl) (.char (by decide) .nil)) (by decide) (by decide) h]; decide
      · rw [encode_dotsOnly hs (.dot (.inl rfl) (.dot (.inl rfl) .nil)) (by decide) (by decide) h]; decide
      · rw [encode_dotsOnly hs (.dot (.inl rfl) (.dot (.inr rfl) .nil)) (by decide) (by decide) h]; decide
      · rw [encode_dotsOnly hs (.dot (.inr rfl) (.dot (.inl rfl) .nil)) (by decide) (by decide) h]; decide
      · rw [encode_dotsOnly hs (.dot (.inr rfl) (.dot (.inr rfl) .nil)) (by decide) (by decide) h]; decide
    · intro h
      unfold isDoubleDot at h
      rw [List.contains_iff_mem] at h
      simp only [List.mem_cons, List.not_mem_nil, or_false] at h
      rcases h with rfl | rfl | rfl | rfl | rfl | rfl | rfl | rfl | rfl <;> decide +kernel

theorem encoded_drive {s : Str} (hs : IsStr s) : isWindowsDriveLetter (utf8PercentEncode s safePath) = isWindowsDriveLetter s := by
  have hchar : ∀ a, isAlpha a = true → a ≠ 37 ∧ a < 128 := by
    intro a ha
    rw [isAlpha_iff] at ha
    unfold Spec.Letter at ha
    omega
  rw [Bool.eq_iff_iff]
  constructor
  · intro h
    have h0 := h
    unfold isWindowsDriveLetter at h
    split at h
    · next a b he =>
      simp only [Bool.and_eq_true, Bool.or_eq_true, beq_iff_eq] at h
      obtain ⟨ha1, ha2⟩ := hchar a h.1
      have hb : b ≠ 37 ∧ b < 128 := by rcases h.2 with rfl | rfl <;> decide
      have hlt : ∀ c ∈ [a, b], c < 128 := by simp; omega
      have := encode_dotsOnly hs (.char ha1 (.char hb.1 .nil)) hlt (utf8Decode_ascii hlt) he
      rw [this, ← he]
      exact h0
    · cases h
  · intro h
    have h0 := h
    unfold isWindowsDriveLetter at h
    split at h
    · next a b =>
      simp only [Bool.and_eq_true, Bool.or_eq_true, beq_iff_eq] at h
      rw [path_fixed]
      · exact h0
      · intro c hc
        have halpha : ∀ c, isAlpha c = true → safePath c = true := by
          intro c hc
          have := (hchar c hc).2
          revert hc
          revert c
          decide +kernel
        rcases List.mem_cons.1 hc with rfl | hc
        · exact halpha _ h.1
        · simp at hc
          subst hc
          rcases h.2 with rfl | rfl <;> decide
    · cases h

theorem parent_eq (sc : Str) (p : List Str) : shortenPath sc p = Spec.parent (Spec.isFile sc) p := by
  unfold shortenPath Spec.parent
  split
  · simp
  · next d =>
    have : (Spec.isFile sc = true ∧ ∃ d' ∈ [d], [d] = [d'] ∧ Spec.isNormDrive d' = true) ↔
        (sc == u!"file" && isNormalizedWindowsDriveLetter d) = true := by
      simp [Spec.isFile, isNormDrive_eq]
    by_cases h : (sc == u!"file" && isNormalizedWindowsDriveLetter d) = true
    · rw [if_pos h, if_pos (this.2 h)]
    · rw [if_neg h, if_neg (mt this.1 h)]; rfl
  · next h1 h2 =>
    rw [if_neg]
    rintro ⟨-, d, -, hd, -⟩
    exact h2 d hd

theorem stored_segment (sc : Str) (p : List Str) {s : Str} (hs : IsStr s) :
    (if (sc == u!"file" && p.isEmpty && isWindowsDriveLetter (utf8PercentEncode s safePath)) = true then
      p ++ [[(utf8PercentEncode s safePath).headD 0, c!":"]] else p ++ [utf8PercentEncode s safePath]) =
      p ++ [Spec.segment (Spec.isFile sc) p s] := by
  unfold Spec.segment
  rw [encoded_drive hs, pathEncode_eq hs, isDrive_eq]
  by_cases h : (sc == u!"file" && p.isEmpty && isWindowsDriveLetter s) = true
  · rw [if_pos h, if_pos (by simpa [Spec.isFile, and_assoc] using h)]
    simp only [Bool.and_eq_true] at h
    have hd := h.2
    rw [← encoded_drive hs, pathEncode_eq hs] at hd
    have hd2 := h.2
    unfold isWindowsDriveLetter at hd2
    split at hd2
    · next a b =>
      have : Spec.Rfc.pathEncode [a, b] = [a, b] := by
        rw [← pathEncode_eq hs]
        exact drive_fixed h.2
      rw [this]
      rfl
    · cases hd2
  · rw [if_neg h, if_neg (by simpa [Spec.isFile, and_assoc] using h)]
where
  drive_fixed {s : Str} (h : isWindowsDriveLetter s = true) : utf8PercentEncode s safePath = s := by
    unfold isWindowsDriveLetter at h
    split at h
    · next a b =>
      simp only [Bool.and_eq_true, Bool.or_eq_true, beq_iff_eq] at h
      apply path_fixed
      intro c hc
      have halpha : ∀ c, isAlpha c = true → safePath c = true := by
        intro c hc
        have : c < 128 := by
          rw [isAlpha_iff] at hc
          unfold Spec.Letter at hc
          omega
        revert hc
        revert c
        decide +kernel
      rcases List.mem_cons.1 hc with rfl | hc
      · exact halpha _ h.1
      · simp at hc
        subst hc
        rcases h.2 with rfl | rfl <;> decide
    · cases h

theorem addPieces_follow (sc : Str) : ∀ (ps : List Str), (∀ a ∈ ps, IsStr a) → ∀ out,
    addPieces sc out ps = Spec.follow (Spec.isFile sc) out ps := by
  intro ps
  induction ps with
  | nil => intro _ out; rfl
  | cons a as ih =>
    intro h out
    have ha := h a (by simp)
    obtain ⟨e1, e2⟩ := encoded_dots ha
    cases as with
    | nil =>
      show addSegment sc out a false = _
      unfold addSegment Spec.follow
      dsimp only
      rw [e1, e2, singleDot_eq a, doubleDot_eq a, parent_eq, stored_segment sc out ha]
      simp
    | cons d ds =>
      show addPieces sc (addSegment sc out a true) (d :: ds) = _
      rw [ih fun x hx => h x (by simp [hx])]
      conv => rhs; unfold Spec.follow
      congr 1
      unfold addSegment
      dsimp only
      rw [e1, e2, singleDot_eq a, doubleDot_eq a, parent_eq, stored_segment sc out ha]
      simp

/-! ### The states -/

section
variable {env : Env} {base : Option Rec}

theorem tailStr_end {sp : Bool} {q f : Option Str} {c : Nat} (h : (tailStr q f).head? = some c) : AuthorityEnd sp c := by
  rcases tailStr_head q f c h with rfl | rfl
  · exact .inr (.inl rfl)
  · exact .inr (.inr (.inl rfl))

theorem pathTail_end {sp : Bool} {path : Str} {q f : Option Str}
    (hs : ∀ c, path.head? = some c → c = 47 ∨ (sp = true ∧ c = 92)) {c : Nat} (h : (path ++ tailStr q f).head? = some c) :
    AuthorityEnd sp c := by
  cases path with
  | nil => exact tailStr_end h
  | cons x xs =>
    rcases hs c h with rfl | ⟨h1, rfl⟩
    · exact .inl rfl
    · exact .inr (.inr (.inr ⟨h1, rfl⟩))

theorem eval_pathStart_parts {url : Rec} (hp : url.path = .list []) (hq0 : url.query = none) (hf0 : url.fragment = none)
    {path : Str} {q f : Option Str} (hpath : ∀ c ∈ path, c ≠ 63 ∧ c ≠ 35)
    (hs : ∀ c, path.head? = some c → c = 47 ∨ (url.isSpecial = true ∧ c = 92)) (hq : ∀ x, q = some x → 35 ∉ x)
    (h1 : IsStr path) (h2 : ∀ x, q = some x → IsStr x) (h3 : ∀ x, f = some x → IsStr x) :
    eval env .utf8 base none .pathStart (path ++ tailStr q f) url =
      (.ok (), { url with path := .list (Spec.pathOf url.scheme path), query := q.map (Spec.queryEncode url.isSpecial), fragment := f.map Spec.fragmentEncode }) := by
  have eq : q.map (encodeQuery .utf8 url) = q.map (Spec.queryEncode url.isSpecial) := by
    cases q with
    | none => rfl
    | some x =>
      simp only [Option.map_some, Option.some.injEq]
      unfold encodeQuery
      rw [ite_self]
      exact queryEncode_eq (h2 x rfl) _
  have ef : f.map (utf8PercentEncode · safeFragment) = f.map Spec.fragmentEncode := by
    cases f with
    | none => rfl
    | some x =>
      simp only [Option.map_some, Option.some.injEq]
      exact fragmentEncode_eq (h3 x rfl)
  have hqf : ∀ c ∈ path, notQF c = true := by
    intro c hc
    have := hpath c hc
    simp [notQF, this]
  have hspe : Spec.isSpecial url.scheme = url.isSpecial := isSpecial_eq _
  rw [eval_step _ _ _ _ (by decide)]
  show (sPathStart none (path ++ tailStr q f) url).andThen env .utf8 base none = _
  cases path with
  | nil =>
    rw [List.nil_append]
    cases hsp : url.isSpecial with
    | true =>
      have e : sPathStart none (tailStr q f) url = .to .path ([] ++ tailStr q f) url := by
        rw [List.nil_append]
        cases ht : tailStr q f with
        | nil => simp [sPathStart, hsp]
        | cons c cs =>
          have hc := tailStr_head q f c (by rw [ht]; rfl)
          have : isPathSep true c = false := by rcases hc with rfl | rfl <;> rfl
          simp [sPathStart, hsp, this]
      rw [e]
      show eval env .utf8 base none .path ([] ++ tailStr q f) url = _
      rw [eval_path_tail hp hq0 hf0 (by simp) hq, eq, ef, hsp]
      rw [show pathPieces true [] = [[]] from rfl, show addPieces url.scheme [] [[]] = addSegment url.scheme [] [] false from rfl,
        addSegment_nil, show Spec.pathOf url.scheme [] = [[]] by unfold Spec.pathOf; rw [hspe, hsp]; rfl]
      rfl
    | false =>
      have e : sPathStart none (tailStr q f) url = afterPath .eof (tailStr q f) url := by
        cases ht : tailStr q f with
        | nil => simp [sPathStart, hsp, afterPath]
        | cons c cs =>
          have hc := tailStr_head q f c (by rw [ht]; rfl)
          have h47 : isPathSep false c = false := by rcases hc with rfl | rfl <;> rfl
          rcases hc with rfl | rfl <;> simp [sPathStart, hsp, afterPath, h47]
      rw [e, eval_afterPath_any (eval_eof ..) hq0 hf0 hq, eq, ef, hsp]
      rw [show Spec.pathOf url.scheme [] = [] by unfold Spec.pathOf; rw [hspe, hsp]; rfl, ← hp]
  | cons c t =>
    have hsep : isPathSep url.isSpecial c = true := by
      rcases hs c rfl with rfl | ⟨h, rfl⟩
      · rfl
      · rw [h]; rfl
    have e : sPathStart none (c :: t ++ tailStr q f) url = .to .path (t ++ tailStr q f) url := by
      simp [sPathStart, hsep]
    rw [e]
    show eval env .utf8 base none .path (t ++ tailStr q f) url = _
    rw [eval_path_tail hp hq0 hf0 (fun x hx => hqf x (by simp [hx])) hq, eq, ef,
      addPieces_follow _ _ fun a ha x hx => h1 x (List.mem_cons_of_mem _ (pathPieces_mem a ha x hx)), ← segmentsOf_eq, ← hspe]
    rfl

theorem eval_port_parts {url : Rec} (h0 : url.port = none) {x R : Str} (hx : ∀ c ∈ x, ¬ AuthorityEnd url.isSpecial c)
    (hR : ∀ c, R.head? = some c → AuthorityEnd url.isSpecial c) :
    Fin.toExcept (eval env .utf8 base none .port (x ++ R) url) =
      match Spec.portOf env url.scheme (some x) with
      | .error e => .error e
      | .ok n => Fin.toExcept (eval env .utf8 base none .pathStart R { url with port := n }) := by
  rw [eval_step _ _ _ _ (by decide)]
  show Fin.toExcept ((sPort env none (x ++ R) url).andThen env .utf8 base none) = _
  unfold sPort Spec.portOf
  dsimp only
  have hRd : ∀ c, R.head? = some c → isDigit c = false := by
    intro c hc
    rcases hR c hc with rfl | rfl | rfl | ⟨-, rfl⟩ <;> decide
  by_cases hd : ∀ c ∈ x, Spec.Digit c
  · have hd' : ∀ c ∈ x, isDigit c = true := fun c hc => by rw [← digit_eq]; simpa using hd c hc
    rw [takeWhile_append hd' hRd, dropWhile_append hd' hRd, if_neg (by simpa using hd)]
    have eEnd : sPortGo env (Option.isSome (none : Option PState)) x R url = sPortEnd env false x R url := by
      cases R with
      | nil => rfl
      | cons c cs =>
        unfold sPortGo
        dsimp only
        rw [if_pos (by rw [authorityEnd_iff.2 (hR c rfl)]; rfl)]
        rfl
    rw [eEnd]
    unfold sPortEnd
    dsimp only
    by_cases hne : x = []
    · subst hne
      simp only [List.isEmpty_nil, if_true, if_pos rfl]
      show Fin.toExcept (eval env .utf8 base none .pathStart R url) =
        Fin.toExcept (eval env .utf8 base none .pathStart R { url with port := none })
      rw [← h0]
    · rw [if_neg (by simpa using hne), if_neg hne]
      by_cases hl : env.maxStrDigits ≠ 0 ∧ env.maxStrDigits < x.length
      · rw [pyInt_long env (s := x) ?_ hne ⟨by omega, hl.2⟩, if_pos hl]
        · rfl
        · intro c hc
          have := hd' c hc
          unfold digitValue
          rw [if_pos this]
          rw [isDigit_iff] at this
          omega
      · rw [port_value env hd' hne (by omega), if_neg hl]
        dsimp only
        rw [show (Int.ofNat (Spec.decimal x)).toNat = Spec.decimal x from rfl]
        by_cases hbig : Spec.decimal x > 65535
        · rw [if_pos hbig, if_pos hbig]; rfl
        · rw [if_neg hbig, if_neg hbig, isDefault_eq]
          cases isDefaultPort url.scheme (Spec.decimal x) <;> rfl
  · rw [if_pos hd]
    have key : ∀ y : Str, (∀ c ∈ y, ¬ AuthorityEnd url.isSpecial c) → (¬ ∀ c ∈ y, Spec.Digit c) →
        ∃ c cs, (y ++ R).dropWhile isDigit = c :: cs ∧ ¬ AuthorityEnd url.isSpecial c := by
      intro y hy hn
      induction y with
      | nil => exact absurd (by simp) hn
      | cons c cs ih =>
        by_cases hc : isDigit c = true
        · rw [List.cons_append, List.dropWhile_cons_of_pos hc]
          refine ih (fun z hz => hy z (by simp [hz])) fun hall => hn ?_
          intro z hz
          rcases List.mem_cons.1 hz with rfl | hz
          · rw [← digit_eq] at hc; simpa using hc
          · exact hall z hz
        · exact ⟨c, cs ++ R, by rw [List.cons_append, List.dropWhile_cons_of_neg hc], hy c (by simp)⟩
    obtain ⟨c, cs, h1, h2⟩ := key x hx hd
    rw [h1]
    unfold sPortGo
    dsimp only
    rw [← authorityEnd_iff] at h2
    rw [if_neg (by simpa using h2)]
    rfl

/-- the text of a port with its colon -/
def portText (p : Option Str) : Str := p.elim [] fun x => 58 :: x

theorem eval_host_parts {url : Rec} (h0 : url.port = none) {h R : Str} {port : Option Str}
    (hh : ∀ c ∈ h, ¬ AuthorityEnd url.isSpecial c) (hcolon : ∀ a b, h = a ++ 58 :: b → InBrackets a)
    (hport : ∀ x, port = some x → (∀ c ∈ x, ¬ AuthorityEnd url.isSpecial c) ∧ ¬ InBrackets h)
    (hR : ∀ c, R.head? = some c → AuthorityEnd url.isSpecial c) :
    Fin.toExcept (eval env .utf8 base none .host (h ++ portText port ++ R) url) =
      if h = [] ∧ (url.isSpecial = true ∨ port ≠ none) then .error .urlParse
      else
        match (hostParse env h (!url.isSpecial)).res, Spec.portOf env url.scheme port with
        | .error e, _ => .error e
        | .ok _, .error e => .error e
        | .ok v, .ok n => Fin.toExcept (eval env .utf8 base none .pathStart R { url with host := some v, port := n }) := by
  rw [eval_step _ _ _ _ (by decide)]
  show Fin.toExcept ((sHost env none (h ++ portText port ++ R) url).andThen env .utf8 base none) = _
  unfold sHost
  rw [if_neg (by simp)]
  dsimp only
  rw [List.append_assoc, hostSpan_parts h false _ hh (fun a b hab => (bracketAfter_false a).2 (hcolon a b hab))]
  · cases port with
    | none =>
      show Fin.toExcept ((sHostGo env none h R url).andThen env .utf8 base none) = _
      have e : sHostGo env none h R url = sHostEnd env false h R url := by
        cases R with
        | nil => rfl
        | cons c cs =>
          unfold sHostGo
          dsimp only
          rw [if_neg]
          · rfl
          · rintro rfl
            rcases hR 58 rfl with h | h | h | ⟨-, h⟩ <;> cases h
      rw [e]
      unfold sHostEnd
      by_cases hc : h = [] ∧ (url.isSpecial = true ∨ (none : Option Str) ≠ none)
      · rw [if_pos hc, if_pos]
        · rfl
        · rcases hc with ⟨rfl, hc | hc⟩
          · simp [hc]
          · exact absurd rfl hc
      · rw [if_neg hc, if_neg, if_neg (by simp)]
        · cases (hostParse env h (!url.isSpecial)).res with
          | error e => rfl
          | ok v =>
            show Fin.toExcept (eval env .utf8 base none .pathStart R { url with host := some v }) =
              Fin.toExcept (eval env .utf8 base none .pathStart R { url with host := some v, port := none })
            rw [← h0]
        · simp only [Bool.and_eq_true, List.isEmpty_iff, not_and]
          intro h1 h2
          exact hc ⟨h2, .inl h1⟩
    | some x =>
      show Fin.toExcept ((sHostGo env none h (58 :: (x ++ R)) url).andThen env .utf8 base none) = _
      unfold sHostGo
      dsimp only
      rw [if_pos rfl]
      by_cases he : h = []
      · rw [if_pos (by simp [he]), if_pos ⟨he, .inr (by simp)⟩]
        rfl
      · rw [if_neg (by simpa using he), if_neg (by simp), if_neg (fun hc => he hc.1)]
        cases (hostParse env h (!url.isSpecial)).res with
        | error e => rfl
        | ok v =>
          show Fin.toExcept (eval env .utf8 base none .port (x ++ R) { url with host := some v }) = _
          rw [eval_port_parts (url := { url with host := some v }) h0 (hport x rfl).1 hR]
          show (match Spec.portOf env url.scheme (some x) with | .error e => _ | .ok n => _) = _
          cases Spec.portOf env url.scheme (some x) <;> rfl
  · intro c hc
    cases port with
    | none => exact .inl (hR c hc)
    | some x =>
      cases hc
      refine .inr ⟨rfl, ?_⟩
      have := (hport x rfl).2
      rw [← bracketAfter_false] at this
      simpa using this

theorem addCreds_parts {url : Rec} (hu : url.username = []) (hp : url.password = []) {ui : Str} (hs : IsStr ui) :
    addCreds url ui = { url with username := Spec.userinfoEncode (ui.takeWhile (· != 58)), password := Spec.userinfoEncode (ui.dropWhile (· != 58)).tail } := by
  have key : ∀ s : Str, splitAtFirst 58 s = none ∧ s.takeWhile (· != 58) = s ∧ s.dropWhile (· != 58) = [] ∨
      splitAtFirst 58 s = some (s.takeWhile (· != 58), (s.dropWhile (· != 58)).tail) := by
    intro s
    induction s with
    | nil => exact .inl ⟨rfl, rfl, rfl⟩
    | cons c cs ih =>
      by_cases hc : c = 58
      · subst hc
        exact .inr rfl
      · have hb : (c != 58) = true := by simpa using hc
        rw [List.takeWhile_cons_of_pos (p := (· != 58)) hb, List.dropWhile_cons_of_pos (p := (· != 58)) hb]
        unfold splitAtFirst
        rw [if_neg hc]
        rcases ih with ⟨h1, h2, h3⟩ | h
        · exact .inl ⟨by rw [h1]; rfl, by rw [h2], h3⟩
        · exact .inr (by rw [h]; rfl)
  unfold addCreds
  rcases key ui with ⟨h1, h2, h3⟩ | h
  · rw [h1, h2, h3]
    dsimp only
    rw [hu, userinfoEncode_eq hs, List.nil_append, show Spec.userinfoEncode ([] : Str).tail = [] from rfl, ← hp]
  · rw [h]
    dsimp only
    rw [hu, hp, userinfoEncode_eq fun c hc => hs c ((List.takeWhile_sublist _).subset hc),
      userinfoEncode_eq fun c hc => hs c ((List.dropWhile_sublist _).subset (List.mem_of_mem_tail hc))]
    rfl

/-- the authority state on a text put together from its parts -/
theorem eval_authority_parts {sc : Str} {p : Parts} (ok : p.OK (Spec.isSpecial sc)) (hs : IsStr p.text) :
    Fin.toExcept (eval env .utf8 base none .authority p.text { scheme := sc }) = p.url env sc := by
  obtain ⟨ui, h, port, path, q, f⟩ := p
  have hsp : ({ scheme := sc } : Rec).isSpecial = Spec.isSpecial sc := (isSpecial_eq sc).symm
  obtain ⟨o1, o2, o3, o4, o5, o6, o7, -⟩ := ok
  dsimp only at o1 o2 o3 o4 o5 o6 o7
  have htext : (Parts.mk ui h port path q f).text = (ui.elim [] fun x => x ++ [64]) ++ (h ++ portText port ++ (path ++ tailStr q f)) := by
    unfold Parts.text portText tailStr
    cases ui <;> cases port <;> cases q <;> cases f <;> simp
  have sub : ∀ c, c ∈ path ++ tailStr q f → c ∈ (Parts.mk ui h port path q f).text := by
    intro c hc; rw [htext]; simp only [List.mem_append] at hc ⊢; exact .inr (.inr hc)
  have h1 : IsStr path := fun c hc => hs c (sub c (by simp [hc]))
  have h2 : ∀ x, q = some x → IsStr x := by
    rintro x rfl c hc
    exact hs c (sub c (by simp [tailStr, hc]))
  have h3 : ∀ x, f = some x → IsStr x := by
    rintro x rfl c hc
    exact hs c (sub c (by simp [tailStr, hc]))
  have h4 : ∀ x, ui = some x → IsStr x := by
    rintro x rfl c hc
    exact hs c (by rw [htext]; simp [hc])
  have hR : ∀ c, (path ++ tailStr q f).head? = some c → AuthorityEnd (Spec.isSpecial sc) c := fun c hc => pathTail_end o5 hc
  have hRn : ∀ c, (path ++ tailStr q f).head? = some c → notEnd (Spec.isSpecial sc) c = false := by
    intro c hc
    unfold notEnd
    rw [authorityEnd_iff.2 (hR c hc)]
    rfl
  have hhp : ∀ c ∈ h ++ portText port, ¬ AuthorityEnd (Spec.isSpecial sc) c ∧ c ≠ 64 := by
    intro c hc
    rcases List.mem_append.1 hc with hc | hc
    · exact o2 c hc
    · cases port with
      | none => cases hc
      | some x =>
        rcases List.mem_cons.1 hc with rfl | hc
        · refine ⟨?_, by decide⟩
          rintro (h | h | h | ⟨-, h⟩) <;> cases h
        · exact (o4 x rfl).1 c hc
  -- from the host state on
  have host : ∀ url : Rec, url.scheme = sc → url.port = none → url.path = .list [] → url.query = none → url.fragment = none →
      Fin.toExcept (eval env .utf8 base none .host (h ++ portText port ++ (path ++ tailStr q f)) url) =
        if h = [] ∧ (Spec.isSpecial sc = true ∨ port ≠ none) then .error .urlParse
        else
          match (hostParse env h (!Spec.isSpecial sc)).res, Spec.portOf env sc port with
          | .error e, _ => .error e
          | .ok _, .error e => .error e
          | .ok v, .ok n => .ok { url with host := some v, port := n, path := .list (Spec.pathOf sc path), query := q.map (Spec.queryEncode (Spec.isSpecial sc)), fragment := f.map Spec.fragmentEncode } := by
    intro url e1 e2 e3 e4 e5
    have hsp : url.isSpecial = Spec.isSpecial sc := by rw [isSpecial_eq, ← e1]; rfl
    rw [eval_host_parts e2 (by rw [hsp]; exact fun c hc => (o2 c hc).1) (by simpa using o3)
      (by rw [hsp]; exact fun x hx => ⟨fun c hc => ((o4 x hx).1 c hc).1, (o4 x hx).2⟩) (by rw [hsp]; exact hR), hsp, e1]
    split
    · rfl
    · cases (hostParse env h (!Spec.isSpecial sc)).res with
      | error e => rfl
      | ok v =>
        cases Spec.portOf env sc port with
        | error e => rfl
        | ok n =>
          dsimp only
          subst e1
          rw [eval_pathStart_parts (url := { url with host := some v, port := n }) e3 e4 e5 o6 (by rw [← hsp] at o5; exact o5) o7 h1 h2 h3,
            ← hsp]
          rfl
  rw [eval_step _ _ _ _ (by decide)]
  show Fin.toExcept ((sAuthority _ { scheme := sc }).andThen env .utf8 base none) = _
  unfold sAuthority
  rw [hsp]
  dsimp only
  cases ui with
  | none =>
    rw [htext]
    rw [Option.elim_none, List.nil_append, takeWhile_append (fun c hc => notEnd_spec (hhp c hc).1) hRn, splitAtLast_none.2 fun hc => (hhp 64 hc).2 rfl]
    show Fin.toExcept (eval env .utf8 base none .host (h ++ portText port ++ (path ++ tailStr q f)) { scheme := sc }) = _
    rw [host { scheme := sc } rfl rfl rfl rfl rfl]
    unfold Parts.url
    simp only [ne_eq, not_true, false_or]
    rfl
  | some x =>
    rw [htext]
    have e : (Option.elim (some x) [] fun x => x ++ [64]) ++ (h ++ portText port ++ (path ++ tailStr q f)) =
        (x ++ 64 :: (h ++ portText port)) ++ (path ++ tailStr q f) := by simp
    have hall : ∀ c ∈ x ++ 64 :: (h ++ portText port), notEnd (Spec.isSpecial sc) c = true := by
      intro c hc
      apply notEnd_spec
      rcases List.mem_append.1 hc with hc | hc
      · exact o1 x rfl c hc
      · rcases List.mem_cons.1 hc with rfl | hc
        · rintro (h | h | h | ⟨-, h⟩) <;> cases h
        · exact (hhp c hc).1
    rw [e, takeWhile_append hall hRn, dropWhile_append hall hRn, splitAtLast_append fun hc => (hhp 64 hc).2 rfl]
    dsimp only
    by_cases hemp : h ++ portText port = []
    · rw [hemp]
      have : h = [] := (List.append_eq_nil_iff.1 hemp).1
      unfold Parts.url
      rw [if_pos (show ([] : Str).isEmpty = true from rfl), if_pos ⟨this, .inr (.inl (by simp))⟩]
      rfl
    · rw [if_neg (by simpa using hemp)]
      show Fin.toExcept (eval env .utf8 base none .host (h ++ portText port ++ (path ++ tailStr q f)) (addCreds { scheme := sc } x)) = _
      rw [addCreds_parts rfl rfl (h4 x rfl), host _ rfl rfl rfl rfl rfl]
      unfold Parts.url
      dsimp only
      by_cases he : h = []
      · have hport : port ≠ none := by
          rintro rfl
          exact hemp (by rw [he]; rfl)
        rw [if_pos ⟨he, .inr hport⟩, if_pos ⟨he, .inr (.inr hport)⟩]
      · rw [if_neg (fun hc => he hc.1), if_neg (fun hc => he hc.1)]
        rfl

end

/-! ### Finding the parts -/

/-- query and fragment behind a path -/
def tailParts : Str → Option Str × Option Str
  | [] => (none, none)
  | c :: cs =>
    if c = 63 then (some (cs.takeWhile notHash), (match cs.dropWhile notHash with | [] => none | _ :: f => some f))
    else (none, some cs)

/-- userinfo and the rest of an authority -/
def userinfoParts (a : Str) : Option Str × Str :=
  match splitAtLast 64 a with
  | none => (none, a)
  | some (x, y) => (some x, y)

/-- host and port -/
def hostParts (sp : Bool) (a : Str) : Str × Option Str :=
  ((hostSpan sp false a).1, match (hostSpan sp false a).2 with | [] => none | _ :: x => some x)

/-- the parts of a text -/
def anatomy (sp : Bool) (r : Str) : Parts :=
  let a := userinfoParts (r.takeWhile (notEnd sp))
  let h := hostParts sp a.2
  let t := tailParts ((r.dropWhile (notEnd sp)).dropWhile notQF)
  ⟨a.1, h.1, h.2, (r.dropWhile (notEnd sp)).takeWhile notQF, t.1, t.2⟩

theorem Parts.text_eq (p : Parts) : p.text =
    (p.userinfo.elim [] fun x => x ++ [64]) ++ (p.host ++ portText p.port) ++ (p.path ++ tailStr p.query p.fragment) := by
  obtain ⟨ui, h, port, path, q, f⟩ := p
  unfold Parts.text portText tailStr
  cases ui <;> cases port <;> cases q <;> cases f <;> simp

theorem tailParts_text {t : Str} (ht : ∀ c, t.head? = some c → c = 63 ∨ c = 35) :
    tailStr (tailParts t).1 (tailParts t).2 = t ∧ ∀ x, (tailParts t).1 = some x → 35 ∉ x := by
  cases t with
  | nil => exact ⟨rfl, fun x hx => by cases hx⟩
  | cons c cs =>
    unfold tailParts
    dsimp only
    by_cases hc : c = 63
    · subst hc
      rw [if_pos rfl]
      dsimp only
      constructor
      · conv => rhs; rw [← List.takeWhile_append_dropWhile (p := notHash) (l := cs)]
        unfold tailStr
        cases hd : cs.dropWhile notHash with
        | nil => rfl
        | cons d ds =>
          have : notHash d = false := by
            have := List.head?_dropWhile_not notHash cs
            rw [hd] at this
            simpa using this
          have hd35 : d = 35 := by simpa [notHash] using this
          subst hd35
          rfl
      · rintro x hx h35
        cases hx
        have := mem_takeWhile_true h35
        cases this
    · rw [if_neg hc]
      have : c = 35 := by have := ht c rfl; omega
      subst this
      exact ⟨rfl, fun x hx => by cases hx⟩
where
  mem_takeWhile_true {p : Nat → Bool} {l : Str} {x : Nat} (h : x ∈ l.takeWhile p) : p x = true := by
    induction l with
    | nil => cases h
    | cons a l ih =>
      rw [List.takeWhile_cons] at h
      split at h
      · rcases List.mem_cons.1 h with rfl | h
        · assumption
        · exact ih h
      · cases h

theorem tailParts_tailStr {q f : Option Str} (hq : ∀ x, q = some x → 35 ∉ x) : tailParts (tailStr q f) = (q, f) := by
  cases q with
  | none => cases f <;> rfl
  | some x =>
    have hall : ∀ c ∈ x, notHash c = true := by
      intro c hc
      have : c ≠ 35 := by rintro rfl; exact hq x rfl hc
      simpa [notHash] using this
    cases f with
    | none =>
      show tailParts (63 :: (x ++ [])) = _
      unfold tailParts
      dsimp only
      rw [if_pos rfl, takeWhile_append hall (by simp), dropWhile_append hall (by simp)]
    | some f =>
      show tailParts (63 :: (x ++ 35 :: f)) = _
      unfold tailParts
      dsimp only
      rw [if_pos rfl, takeWhile_append hall (by rintro c hc; cases hc; rfl), dropWhile_append hall (by rintro c hc; cases hc; rfl)]

theorem hostSpan_facts {sp : Bool} (s : Str) : ∀ inside, s = (hostSpan sp inside s).1 ++ (hostSpan sp inside s).2 ∧
    (∀ a b, (hostSpan sp inside s).1 = a ++ 58 :: b → bracketAfter inside a = true) ∧
    (∀ c, (hostSpan sp inside s).2.head? = some c →
      isAuthorityEnd sp c = true ∨ (c = 58 ∧ bracketAfter inside (hostSpan sp inside s).1 = false)) := by
  induction s with
  | nil => intro i; exact ⟨rfl, fun a b h => by simp [hostSpan] at h, fun c hc => by cases hc⟩
  | cons c cs ih =>
    intro i
    unfold hostSpan
    split
    · next h =>
      refine ⟨rfl, fun a b h => by simp at h, fun x hx => ?_⟩
      cases hx
      simp only [Bool.or_eq_true, Bool.and_eq_true, decide_eq_true_eq, Bool.not_eq_true'] at h
      rcases h with ⟨h1, h2⟩ | h
      · exact .inr ⟨h1, h2⟩
      · exact .inl h
    · next h =>
      obtain ⟨h1, h2, h3⟩ := ih (if c = 91 then true else if c = 93 then false else i)
      dsimp only
      refine ⟨by rw [List.cons_append, ← h1], ?_, h3⟩
      intro a b hab
      cases a with
      | nil =>
        simp only [List.nil_append, List.cons.injEq] at hab
        obtain ⟨rfl, -⟩ := hab
        simp only [Bool.or_eq_true, Bool.and_eq_true, decide_eq_true_eq, Bool.not_eq_true', not_or] at h
        show i = true
        cases i with
        | true => rfl
        | false => exact absurd ⟨trivial, rfl⟩ h.1
      | cons y ys =>
        simp only [List.cons_append, List.cons.injEq] at hab
        obtain ⟨rfl, hab⟩ := hab
        exact h2 ys b hab

/-- Every text has parts, and only one way to take it apart is right. -/
theorem anatomy_spec {sp : Bool} {r : Str} (hr : sp = true → ∀ c, r.head? = some c → c ≠ 47 ∧ c ≠ 92) :
    (anatomy sp r).text = r ∧ (anatomy sp r).OK sp := by
  have hA : ∀ c ∈ r.takeWhile (notEnd sp), ¬ AuthorityEnd sp c := by
    intro c hc
    have := tailParts_text.mem_takeWhile_true hc
    unfold notEnd at this
    rw [← authorityEnd_iff]
    simpa using this
  have hT : ∀ c, (r.dropWhile (notEnd sp)).head? = some c → AuthorityEnd sp c := by
    intro c hc
    have := List.head?_dropWhile_not (notEnd sp) r
    rw [hc] at this
    rw [← authorityEnd_iff]
    simpa [notEnd] using this
  have hcat : r = r.takeWhile (notEnd sp) ++ r.dropWhile (notEnd sp) := List.takeWhile_append_dropWhile.symm
  unfold anatomy
  generalize hAe : r.takeWhile (notEnd sp) = A at *
  generalize hTe : r.dropWhile (notEnd sp) = T at *
  dsimp only
  have htail : ∀ c, (T.dropWhile notQF).head? = some c → c = 63 ∨ c = 35 := by
    intro c hc
    have := List.head?_dropWhile_not notQF T
    rw [hc] at this
    have : ¬ c = 63 → c = 35 := by simpa [notQF] using this
    omega
  obtain ⟨t1, t2⟩ := tailParts_text htail
  -- userinfo
  have hui : ((userinfoParts A).1.elim [] fun x => x ++ [64]) ++ (userinfoParts A).2 = A ∧ 64 ∉ (userinfoParts A).2 ∧
      (∀ c ∈ (userinfoParts A).2, c ∈ A) ∧ ∀ x, (userinfoParts A).1 = some x → ∀ c ∈ x, c ∈ A := by
    unfold userinfoParts
    cases h : splitAtLast 64 A with
    | none => exact ⟨rfl, splitAtLast_none.1 h, fun c hc => hc, fun x hx => by cases hx⟩
    | some p =>
      obtain ⟨x, y⟩ := p
      obtain ⟨h1, h2⟩ := splitAtLast_some h
      refine ⟨by rw [h1]; simp, h2, fun c hc => by rw [h1]; simp [show c ∈ y from hc], ?_⟩
      intro z hz c hc
      cases hz
      rw [h1]
      simp [hc]
  obtain ⟨u1, u2, u3, u4⟩ := hui
  generalize userinfoParts A = ui at *
  obtain ⟨ui, B⟩ := ui
  dsimp only at u1 u2 u3 u4 ⊢
  obtain ⟨s1, s2, s3⟩ := hostSpan_facts (sp := sp) B false
  have hB : ∀ c ∈ B, ¬ AuthorityEnd sp c ∧ c ≠ 64 := fun c hc => ⟨hA c (u3 c hc), by rintro rfl; exact u2 hc⟩
  have hhp : (hostParts sp B).1 ++ portText (hostParts sp B).2 = B ∧
      ∀ x, (hostParts sp B).2 = some x → (∀ c ∈ x, c ∈ B) ∧ ¬ InBrackets (hostParts sp B).1 := by
    unfold hostParts
    cases hp : (hostSpan sp false B).2 with
    | nil =>
      rw [hp] at s1
      exact ⟨s1.symm, fun x hx => by cases hx⟩
    | cons d ds =>
      rw [hp] at s1 s3
      have hd : d = 58 ∧ bracketAfter false (hostSpan sp false B).1 = false := by
        rcases s3 d rfl with h | h
        · exact absurd (authorityEnd_iff.1 h) (hB d (by rw [s1]; simp)).1
        · exact h
      obtain ⟨rfl, hd⟩ := hd
      refine ⟨s1.symm, ?_⟩
      intro x hx
      cases hx
      refine ⟨fun c hc => by rw [s1]; simp [hc], ?_⟩
      rw [← bracketAfter_false, hd]
      decide
  have hh1 : (hostParts sp B).1 = (hostSpan sp false B).1 := rfl
  obtain ⟨p1, p2⟩ := hhp
  constructor
  · rw [Parts.text_eq]
    dsimp only
    rw [t1, p1, u1, List.takeWhile_append_dropWhile, ← hcat]
  · refine ⟨fun x hx c hc => hA c (u4 x hx c hc), ?_, ?_, ?_, ?_, ?_, t2, ?_⟩
    · intro c hc
      refine hB c ?_
      rw [s1, ← hh1]
      exact List.mem_append_left _ hc
    · intro a b hab
      rw [← bracketAfter_false]
      exact s2 a b (by rw [← hh1]; dsimp only at hab; rw [hab]; simp)
    · intro x hx
      exact ⟨fun c hc => hB c ((p2 x hx).1 c hc), (p2 x hx).2⟩
    · intro c hc
      dsimp only at hc
      cases hT' : T with
      | nil => rw [hT'] at hc; cases hc
      | cons d ds =>
        rw [hT', List.takeWhile_cons] at hc
        split at hc
        · next hn =>
          cases hc
          rcases hT c (by rw [hT']; rfl) with h | h | h | h
          · exact .inl h
          · subst h; cases hn
          · subst h; cases hn
          · exact .inr h
        · cases hc
    · intro c hc
      have := tailParts_text.mem_takeWhile_true hc
      simpa [notQF] using this
    · intro hsp hh hu hp
      dsimp only at hh hu hp ⊢
      have hB0 : B = [] := by rw [← p1, hh, hp]; rfl
      have hA0 : A = [] := by rw [← u1, hu, hB0]; rfl
      rw [hA0, List.nil_append] at hcat
      subst hcat
      cases hr0 : r with
      | nil => rfl
      | cons c cs =>
        have h1 := hr hsp c (by rw [hr0]; rfl)
        have h2 := hT c (by rw [hr0]; rfl)
        rw [List.takeWhile_cons, if_neg]
        rcases h2 with h | h | h | ⟨-, h⟩
        · exact absurd h h1.1
        · subst h; decide
        · subst h; decide
        · exact absurd h h1.2

/-- the parts of a text put together from parts -/
theorem anatomy_text {sp : Bool} {p : Parts} (ok : p.OK sp) : anatomy sp p.text = p := by
  rw [Parts.text_eq]
  obtain ⟨ui, h, port, path, q, f⟩ := p
  obtain ⟨o1, o2, o3, o4, o5, o6, o7, -⟩ := ok
  dsimp only at o1 o2 o3 o4 o5 o6 o7 ⊢
  have hRn : ∀ c, (path ++ tailStr q f).head? = some c → notEnd sp c = false := by
    intro c hc
    unfold notEnd
    rw [authorityEnd_iff.2 (pathTail_end o5 hc)]
    rfl
  have hhp : ∀ c ∈ h ++ portText port, ¬ AuthorityEnd sp c ∧ c ≠ 64 := by
    intro c hc
    rcases List.mem_append.1 hc with hc | hc
    · exact o2 c hc
    · cases port with
      | none => cases hc
      | some x =>
        rcases List.mem_cons.1 hc with rfl | hc
        · refine ⟨?_, by decide⟩
          rintro (h | h | h | ⟨-, h⟩) <;> cases h
        · exact (o4 x rfl).1 c hc
  have hall : ∀ c ∈ (ui.elim [] fun x => x ++ [64]) ++ (h ++ portText port), notEnd sp c = true := by
    intro c hc
    apply notEnd_spec
    rcases List.mem_append.1 hc with hc | hc
    · cases ui with
      | none => cases hc
      | some x =>
        rcases List.mem_append.1 hc with hc | hc
        · exact o1 x rfl c hc
        · simp at hc
          subst hc
          rintro (h | h | h | ⟨-, h⟩) <;> cases h
    · exact (hhp c hc).1
  have hui : userinfoParts ((ui.elim [] fun x => x ++ [64]) ++ (h ++ portText port)) = (ui, h ++ portText port) := by
    unfold userinfoParts
    cases ui with
    | none =>
      rw [Option.elim_none, List.nil_append, splitAtLast_none.2 fun hc => (hhp 64 hc).2 rfl]
    | some x =>
      rw [show (Option.elim (some x) [] fun x => x ++ [64]) ++ (h ++ portText port) = x ++ 64 :: (h ++ portText port) by simp,
        splitAtLast_append fun hc => (hhp 64 hc).2 rfl]
  have hho : hostParts sp (h ++ portText port) = (h, port) := by
    unfold hostParts
    rw [hostSpan_parts h false _ (fun c hc => (o2 c hc).1) (fun a b hab => (bracketAfter_false a).2 (o3 a b (by simpa using hab)))]
    · cases port <;> rfl
    · intro c hc
      cases port with
      | none => cases hc
      | some x =>
        cases hc
        refine .inr ⟨rfl, ?_⟩
        have := (o4 x rfl).2
        rw [← bracketAfter_false] at this
        simpa using this
  have hqf : ∀ c ∈ path, notQF c = true := by
    intro c hc
    have := o6 c hc
    simp [notQF, this]
  have hend : ∀ c, (tailStr q f).head? = some c → notQF c = false := by
    intro c hc
    rcases tailStr_head q f c hc with rfl | rfl <;> decide
  unfold anatomy
  rw [takeWhile_append hall hRn, dropWhile_append hall hRn, hui]
  dsimp only
  rw [hho, takeWhile_append hqf hend, dropWhile_append hqf hend, tailParts_tailStr o7]

end Urlstd
