/-
The removals at the start of `BasicURLParser.parse`, and parsers that ignore the base.
-/
import Verif.Lemmas.RoundTrip2

set_option linter.unusedSimpArgs false
set_option linter.unusedVariables false

namespace Urlstd

open Spec (IsStr)

/-! ### Stripping -/

theorem tab_c0 {c : Nat} (h : isTabNewline c = true) : isC0OrSpace c = true := by
  simp only [isTabNewline, isC0OrSpace, Bool.or_eq_true, beq_iff_eq, decide_eq_true_eq] at *
  omega

theorem dropWhile_filter {p q : Nat → Bool} (h : ∀ c, q c = false → p c = true) (s : Str) :
    (s.filter q).dropWhile p = (s.dropWhile p).filter q := by
  induction s with
  | nil => rfl
  | cons c cs ih =>
    cases hq : q c with
    | false =>
      rw [List.filter_cons_of_neg (by simp [hq]), List.dropWhile_cons_of_pos (h c hq), ih]
    | true =>
      rw [List.filter_cons_of_pos hq]
      cases hp : p c with
      | true => rw [List.dropWhile_cons_of_pos hp, List.dropWhile_cons_of_pos hp, ih]
      | false =>
        rw [List.dropWhile_cons_of_neg (by simp [hp]), List.dropWhile_cons_of_neg (by simp [hp]),
          List.filter_cons_of_pos hq]

theorem stripBoth_filter {p q : Nat → Bool} (h : ∀ c, q c = false → p c = true) (s : Str) :
    stripBoth p (s.filter q) = (stripBoth p s).filter q := by
  unfold stripBoth
  rw [dropWhile_filter h, ← List.filter_reverse, dropWhile_filter h, ← List.filter_reverse]

theorem removeTabNewline_idem (s : Str) : removeTabNewline (removeTabNewline s) = removeTabNewline s := by
  unfold removeTabNewline
  rw [List.filter_filter]
  simp

theorem prepared_tabs (s : Str) : prepared (removeTabNewline s) none = prepared s none := by
  show removeTabNewline (stripBoth isC0OrSpace (removeTabNewline s)) = removeTabNewline (stripBoth isC0OrSpace s)
  have : stripBoth isC0OrSpace (removeTabNewline s) = removeTabNewline (stripBoth isC0OrSpace s) := by
    refine stripBoth_filter (fun c hc => tab_c0 ?_) s
    simpa using hc
  rw [this, removeTabNewline_idem]

theorem dropWhile_skip {p : Nat → Bool} {a b : Str} (ha : ∀ c ∈ a, p c = true) :
    (a ++ b).dropWhile p = b.dropWhile p := List.dropWhile_append_of_pos ha

/-- stripping on the right -/
def stripRight (p : Nat → Bool) (s : Str) : Str := (s.reverse.dropWhile p).reverse

theorem stripRight_append_all {p : Nat → Bool} {s q : Str} (hq : ∀ c ∈ q, p c = true) :
    stripRight p (s ++ q) = stripRight p s := by
  unfold stripRight
  rw [List.reverse_append, dropWhile_skip]
  intro c hc
  exact hq c (List.mem_reverse.1 hc)

theorem stripBoth_eq (p : Nat → Bool) (s : Str) : stripBoth p s = stripRight p (s.dropWhile p) := rfl

theorem stripBoth_surround {p : Nat → Bool} {a s b : Str} (ha : ∀ c ∈ a, p c = true) (hb : ∀ c ∈ b, p c = true) :
    stripBoth p (a ++ s ++ b) = stripBoth p s := by
  rw [stripBoth_eq, stripBoth_eq, List.append_assoc, dropWhile_skip ha]
  by_cases hs : ∀ c ∈ s, p c = true
  · rw [dropWhile_all, dropWhile_all hs]
    intro c hc
    rcases List.mem_append.1 hc with h | h
    · exact hs c h
    · exact hb c h
  · have : (s ++ b).dropWhile p = s.dropWhile p ++ b := by
      clear ha
      induction s with
      | nil => exact absurd (by simp) hs
      | cons c cs ih =>
        rw [List.cons_append]
        cases hp : p c with
        | false => rw [List.dropWhile_cons_of_neg (by simp [hp]), List.dropWhile_cons_of_neg (by simp [hp])]; rfl
        | true =>
          rw [List.dropWhile_cons_of_pos hp, List.dropWhile_cons_of_pos hp, ih]
          intro h
          apply hs
          intro x hx
          rcases List.mem_cons.1 hx with rfl | hx
          · exact hp
          · exact h x hx
    rw [this, stripRight_append_all hb]

theorem prepared_surround {a s b : Str} (ha : ∀ c ∈ a, isC0OrSpace c = true) (hb : ∀ c ∈ b, isC0OrSpace c = true) :
    prepared (a ++ s ++ b) none = prepared s none := by
  show removeTabNewline (stripBoth isC0OrSpace (a ++ s ++ b)) = removeTabNewline (stripBoth isC0OrSpace s)
  rw [stripBoth_surround ha hb]

/-- the input behind a first part without spaces and controls -/
def prepEnd (s : Str) : Str := removeTabNewline (stripRight isC0OrSpace s)

theorem stripRight_append {p : Nat → Bool} {a b : Str} (ha : ∀ c ∈ a, p c = false) :
    stripRight p (a ++ b) = a ++ stripRight p b := by
  unfold stripRight
  rw [List.reverse_append]
  have key : ∀ (x y : Str), (∀ c ∈ y, p c = false) → (x ++ y).dropWhile p = x.dropWhile p ++ y := by
    intro x y hy
    induction x with
    | nil =>
      rw [List.nil_append, List.dropWhile_nil, List.nil_append]
      exact dropWhile_none fun c hc => hy c (List.mem_of_mem_head? hc)
    | cons c cs ih =>
      rw [List.cons_append]
      cases hp : p c with
      | true => rw [List.dropWhile_cons_of_pos hp, List.dropWhile_cons_of_pos hp, ih]
      | false => rw [List.dropWhile_cons_of_neg (by simp [hp]), List.dropWhile_cons_of_neg (by simp [hp])]; rfl
  rw [key _ _ fun c hc => ha c (List.mem_reverse.1 hc), List.reverse_append, List.reverse_reverse]

theorem prepared_append {a b : Str} (ha : ∀ c ∈ a, isC0OrSpace c = false) (hne : a ≠ []) :
    prepared (a ++ b) none = a ++ prepEnd b := by
  show removeTabNewline (stripBoth isC0OrSpace (a ++ b)) = _
  rw [stripBoth_eq, dropWhile_none, stripRight_append ha]
  · unfold prepEnd removeTabNewline
    rw [List.filter_append]
    congr 1
    rw [List.filter_eq_self]
    intro c hc
    cases h : isTabNewline c with
    | false => rfl
    | true => have := tab_c0 h; rw [ha c hc] at this; cases this
  · intro c hc
    cases a with
    | nil => exact absurd rfl hne
    | cons x xs =>
      simp at hc; subst hc
      exact ha x (by simp)

theorem prepEnd_id {b : Str} (hb : ∀ c ∈ b, isTabNewline c = false) (hl : ∀ c, b.getLast? = some c → isC0OrSpace c = false) :
    prepEnd b = b := by
  unfold prepEnd stripRight
  rw [dropWhile_none, List.reverse_reverse, removeTabNewline_id hb]
  intro c hc
  rw [List.head?_reverse] at hc
  exact hl c hc

theorem prepEnd_append {a b : Str} (ha : ∀ c ∈ a, isC0OrSpace c = false) : prepEnd (a ++ b) = a ++ prepEnd b := by
  cases a with
  | nil => rfl
  | cons x xs =>
    unfold prepEnd
    rw [stripRight_append ha]
    unfold removeTabNewline
    rw [List.filter_append]
    congr 1
    rw [List.filter_eq_self]
    intro c hc
    cases h : isTabNewline c with
    | false => rfl
    | true => have := tab_c0 h; rw [ha c hc] at this; cases this

/-! ### Parsing depends on the prepared input only -/

theorem basicParse_prepared {env : Env} {s t : Str} (h : prepared s none = prepared t none) (base : Option Rec)
    (e : Encoding) : (basicParse env s base e).toExcept = (basicParse env t base e).toExcept := by
  rw [basicParse_toExcept, basicParse_toExcept, h]

/-- the base with its string replaced -/
theorem parseUrl_prepared {env : Env} {s t : Str} (h : prepared s none = prepared t none) (base : BaseArg)
    (e : Encoding) : (parseUrl env s base e).res = (parseUrl env t base e).res := by
  cases base with
  | none => exact basicParse_prepared h none e
  | record b => exact basicParse_prepared h (some b) e
  | str b =>
    rw [parseUrl_str, parseUrl_str]
    cases (basicParse env b none e).toExcept with
    | error _ => rfl
    | ok r => exact basicParse_prepared h (some r) e

theorem parseUrl_prepared_base {env : Env} {s b c : Str} (h : prepared b none = prepared c none)
    (e : Encoding) : (parseUrl env s (.str b) e).res = (parseUrl env s (.str c) e).res := by
  rw [parseUrl_str, parseUrl_str, basicParse_prepared h none e]

/-! ### States that do not look at the base -/

/-- states from which the base is not used any more -/
def PState.free : PState → Bool
  | .specialAuthoritySlashes | .specialAuthorityIgnoreSlashes | .pathOrAuthority | .authority | .host | .port
  | .pathStart | .path | .opaquePath | .query | .fragment | .eof => true
  | _ => false

/-- the outcome is a failure or a state with property `p` -/
def SOut.In (p : PState → Bool) : SOut → Prop
  | .to st _ _ => p st = true
  | .fail _ _ => True

theorem in_ite {p : PState → Bool} {c : Prop} [Decidable c] {a b : SOut} (ha : a.In p) (hb : b.In p) :
    (if c then a else b).In p := by split <;> assumption

theorem afterPath_free {st : PState} (h : st.free = true) (r : Str) (u : Rec) : (afterPath st r u).In PState.free := by
  unfold afterPath
  split
  · exact h
  · exact in_ite rfl rfl

theorem sHostEnd_free (env : Env) (b r : Str) (u : Rec) : (sHostEnd env false b r u).In PState.free := by
  unfold sHostEnd
  refine in_ite trivial (in_ite rfl ?_)
  split
  · trivial
  · rfl

theorem sstep_free (env : Env) (e : Encoding) (base base' : Option Rec) {st : PState} (h : st.free = true) (rest : Str)
    (url : Rec) :
    sstep env e base none st rest url = sstep env e base' none st rest url ∧
    (st ≠ .eof → (sstep env e base none st rest url).In PState.free) := by
  cases st <;> first | (simp [PState.free] at h; done) | refine ⟨rfl, fun hne => ?_⟩
  case pathOrAuthority => exact in_ite rfl rfl
  case specialAuthoritySlashes => exact in_ite rfl rfl
  case specialAuthorityIgnoreSlashes => rfl
  case authority =>
    show (sAuthority rest url).In _
    unfold sAuthority
    dsimp only
    split
    · rfl
    · exact in_ite trivial rfl
  case host =>
    show (sHost env none rest url).In _
    unfold sHost
    rw [if_neg (by simp)]
    dsimp only
    unfold sHostGo
    split
    · exact sHostEnd_free ..
    · refine in_ite (in_ite trivial ?_) (sHostEnd_free ..)
      rw [if_neg (by simp)]
      split
      · trivial
      · rfl
  case port =>
    show (sPort env none rest url).In _
    have : ∀ b r, (sPortEnd env false b r url).In PState.free := by
      intro b r
      unfold sPortEnd
      dsimp only
      refine in_ite rfl ?_
      split
      · trivial
      · exact in_ite trivial rfl
    unfold sPort sPortGo
    split
    · exact this ..
    · exact in_ite (this ..) trivial
  case pathStart =>
    show (sPathStart none rest url).In _
    unfold sPathStart
    split
    · refine in_ite rfl ?_
      rw [if_neg (by simp)]
      rfl
    · exact in_ite rfl (in_ite rfl (in_ite rfl (in_ite rfl rfl)))
  case path =>
    show (sPath none rest url).In _
    unfold sPath
    split
    · trivial
    · exact afterPath_free rfl ..
  case opaquePath => exact afterPath_free rfl ..
  case query =>
    show (sQuery e none rest url).In _
    unfold sQuery
    dsimp only
    refine in_ite rfl ?_
    split
    · trivial
    · rfl
  case fragment =>
    show (sFragment rest url).In _
    unfold sFragment
    refine in_ite rfl ?_
    split
    · trivial
    · rfl
  case eof => exact absurd rfl hne

theorem eval_free (env : Env) (e : Encoding) (base base' : Option Rec) (n : Nat) : ∀ (st : PState) (rest : Str)
    (url : Rec), st.rank ≤ n → st.free = true →
    eval env e base none st rest url = eval env e base' none st rest url := by
  induction n with
  | zero =>
    intro st rest url h _
    rw [rank_zero (Nat.le_zero.1 h), eval_eof, eval_eof]
  | succ n ih =>
    intro st rest url h hf
    by_cases he : st = .eof
    · rw [he, eval_eof, eval_eof]
    · rw [eval_step _ _ _ _ he, eval_step _ _ _ _ he]
      obtain ⟨h1, h2⟩ := sstep_free env e base base' hf rest url
      have h2 := h2 he
      have hb := sstep_below env e base none st rest url
      rw [← h1]
      cases hs : sstep env e base none st rest url with
      | fail err u => rfl
      | to st' r u =>
        rw [hs] at hb h2
        have hb : st'.rank < st.rank := hb
        exact ih st' r u (by omega) h2

/-- the base is not used from this state on -/
theorem eval_free' (env : Env) (e : Encoding) (base base' : Option Rec) {st : PState} (hf : st.free = true) (rest : Str)
    (url : Rec) : eval env e base none st rest url = eval env e base' none st rest url :=
  eval_free env e base base' 20 st rest url (rank_le _) hf

end Urlstd
