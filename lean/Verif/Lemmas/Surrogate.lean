/-
Pairing surrogates commutes with everything the parser does to a text.
-/
import Verif.Lemmas.Eval
import Verif.Lemmas.RoundTrip

set_option linter.unusedSimpArgs false
set_option linter.unusedVariables false

namespace Urlstd

open Spec

/-! ### Clusters -/

/-- induction over the characters, pairs and unpaired surrogates of a string -/
theorem toScalar_ind {C : Str → Prop} (h0 : C [])
    (h1 : ∀ c r, c ≤ 0x10FFFF → ¬ Surrogate c → toScalar (c :: r) = c :: toScalar r → C r → C (c :: r))
    (h2 : ∀ a b r, 128 ≤ a → 128 ≤ b → toScalar (a :: b :: r) = (0x10000 + (a - 0xD800) * 1024 + (b - 0xDC00)) :: toScalar r →
      C r → C (a :: b :: r))
    (h3 : ∀ a r, Surrogate a → toScalar (a :: r) = 0xFFFD :: toScalar r → C r → C (a :: r))
    (s : Str) (hs : IsStr s) : C s := by
  fun_induction combineSurrogates s with
  | case1 => exact h0
  | case2 a h =>
    refine h3 a [] h ?_ h0
    rw [toScalar_eq_combine _ hs, combineSurrogates, if_pos h]; rfl
  | case3 a h => exact h1 a [] (hs a (by simp)) h (toScalar_scalar (hs a (by simp)) h []) h0
  | case4 a b rest h ih =>
    have hs' : IsStr rest := fun c hc => hs c (by simp [hc])
    refine h2 a b rest (by omega) (by omega) ?_ (ih hs')
    rw [toScalar_eq_combine _ hs, combineSurrogates, if_pos h, toScalar_eq_combine _ hs']
  | case5 a b rest h1' h2' ih =>
    have hs' : IsStr (b :: rest) := fun c hc => hs c (by simp [hc])
    refine h3 a (b :: rest) h2' ?_ (ih hs')
    rw [toScalar_eq_combine _ hs, combineSurrogates, if_neg h1', if_pos h2', toScalar_eq_combine _ hs']
  | case6 a b rest h1' h2' ih =>
    have hs' : IsStr (b :: rest) := fun c hc => hs c (by simp [hc])
    exact h1 a (b :: rest) (hs a (by simp)) h2' (toScalar_scalar (hs a (by simp)) h2' _) (ih hs')

theorem toScalar_filter (s : Str) (hs : IsStr s) :
    (toScalar s).filter (· < 128) = s.filter (· < 128) := by
  refine toScalar_ind (C := fun s => (toScalar s).filter (· < 128) = s.filter (· < 128)) rfl ?_ ?_ ?_ s hs
  · intro c r _ _ h ih
    rw [h, List.filter_cons, List.filter_cons, ih]
  · intro a b r ha hb h ih
    rw [h, List.filter_cons, List.filter_cons, List.filter_cons, if_neg (by simp; omega), if_neg (by simp; omega),
      if_neg (by simp; omega), ih]
  · intro a r ha h ih
    rw [h, List.filter_cons, List.filter_cons, if_neg (by simp), if_neg (by simp; exact Nat.le_trans (by decide) ha.1), ih]

theorem mem_toScalar {c : Nat} (hc : c < 128) {s : Str} (hs : IsStr s) : c ∈ toScalar s ↔ c ∈ s := by
  have h := toScalar_filter s hs
  have : ∀ l : Str, c ∈ l ↔ c ∈ l.filter (· < 128) := by intro l; simp [hc]
  rw [this, h, ← this]

theorem toScalar_cons {c : Nat} (hc : c < 128) (r : Str) : toScalar (c :: r) = c :: toScalar r :=
  toScalar_scalar (by omega) (by unfold Surrogate; omega) r

theorem toScalar_head {c : Nat} {r : Str} (hs : IsStr (c :: r)) (hc : 128 ≤ c) :
    ∃ y t, toScalar (c :: r) = y :: t ∧ 128 ≤ y := by
  refine toScalar_ind (C := fun s => ∀ c r, s = c :: r → 128 ≤ c → ∃ y t, toScalar (c :: r) = y :: t ∧ 128 ≤ y)
    (by simp) ?_ ?_ ?_ (c :: r) hs c r rfl hc
  · rintro c r _ _ h _ c' r' e hc; cases e; exact ⟨_, _, h, hc⟩
  · rintro a b r ha hb h _ c' r' e hc; cases e; exact ⟨_, _, h, by omega⟩
  · rintro a r ha h _ c' r' e hc; cases e; exact ⟨_, _, h, by omega⟩

theorem toScalar_isEmpty {s : Str} (hs : IsStr s) : (toScalar s).isEmpty = s.isEmpty := by
  cases s with
  | nil => rfl
  | cons c r =>
    by_cases hc : c < 128
    · rw [toScalar_cons hc]; rfl
    · obtain ⟨y, t, h, _⟩ := toScalar_head hs (by omega)
      rw [h]; rfl

theorem head_toScalar {c : Nat} (hc : c < 128) {s : Str} (hs : IsStr s) :
    (toScalar s).head? = some c ↔ s.head? = some c := by
  cases s with
  | nil => rfl
  | cons d r =>
    by_cases hd : d < 128
    · rw [toScalar_cons hd]; rfl
    · obtain ⟨y, t, h, hy⟩ := toScalar_head hs (by omega)
      rw [h]
      simp only [List.head?_cons, Option.some.injEq]
      constructor <;> intro h <;> omega

/-- the text has a character outside ASCII -/
theorem ascii_toScalar {s : Str} (hs : IsStr s) : (∀ c ∈ toScalar s, c < 128) ↔ (∀ c ∈ s, c < 128) := by
  refine toScalar_ind (C := fun s => (∀ c ∈ toScalar s, c < 128) ↔ (∀ c ∈ s, c < 128)) (by simp) ?_ ?_ ?_ s hs
  · intro c r _ _ h ih
    rw [h]; simp [ih]
  · intro a b r ha hb h ih
    rw [h]
    constructor <;> intro h' <;> have := h' _ List.mem_cons_self <;> omega
  · intro a r ha h ih
    rw [h]
    constructor <;> intro h' <;> have := h' _ List.mem_cons_self <;> simp only [Surrogate] at ha <;> omega

theorem toScalar_asciiPrefix {a : Str} (ha : ∀ c ∈ a, c < 128) (b : Str) : toScalar (a ++ b) = a ++ toScalar b := by
  induction a with
  | nil => rfl
  | cons c cs ih =>
    rw [List.cons_append, toScalar_cons (ha c (by simp)), ih fun x hx => ha x (by simp [hx])]; rfl

theorem toScalar_id {a : Str} (ha : ∀ c ∈ a, c < 128) : toScalar a = a := by
  have := toScalar_asciiPrefix ha []
  simpa using this

/-- a test that refuses every character outside ASCII -/
theorem asciiTest {f : Str → Bool} (hf : ∀ s, f s = true → ∀ c ∈ s, c < 128) {s : Str} (hs : IsStr s) :
    f (toScalar s) = f s := by
  by_cases h : ∀ c ∈ s, c < 128
  · rw [toScalar_id h]
  · have h' := mt (ascii_toScalar hs).1 h
    have e1 : f s = false := by
      cases e : f s with
      | false => rfl
      | true => exact absurd (hf s e) h
    have e2 : f (toScalar s) = false := by
      cases e : f (toScalar s) with
      | false => rfl
      | true => exact absurd (hf _ e) h'
    rw [e1, e2]

theorem isStr_suffix {a b : Str} (h : IsStr (a ++ b)) : IsStr a ∧ IsStr b :=
  ⟨fun c hc => h c (by simp [hc]), fun c hc => h c (by simp [hc])⟩

/-! ### Spans -/

theorem span_split (p : Nat → Bool) (s : Str) : ∃ a b, s = a ++ b ∧ s.takeWhile p = a ∧ s.dropWhile p = b ∧
    (∀ c ∈ a, p c = true) ∧ ∀ c, b.head? = some c → p c = false :=
  ⟨s.takeWhile p, s.dropWhile p, (List.takeWhile_append_dropWhile).symm, rfl, rfl, fun c hc => takeWhile_mem hc,
    fun c hc => by
      have := List.head?_dropWhile_not p s
      rw [hc] at this; simpa using this⟩

theorem span_of {p : Nat → Bool} {a b : Str} (ha : ∀ c ∈ a, p c = true) (hb : ∀ c, b.head? = some c → p c = false) :
    (a ++ b).takeWhile p = a ∧ (a ++ b).dropWhile p = b := by
  refine ⟨takeWhile_append ha hb, ?_⟩
  rw [List.dropWhile_append_of_pos ha]
  cases b with
  | nil => rfl
  | cons c cs => rw [List.dropWhile_cons_of_neg]; simp [hb c rfl]

/-- cutting at ASCII characters -/
theorem toScalar_span {p : Nat → Bool} (hp : ∀ c, 128 ≤ c → p c = true) {s : Str} (hs : IsStr s) :
    (toScalar s).takeWhile p = toScalar (s.takeWhile p) ∧ (toScalar s).dropWhile p = toScalar (s.dropWhile p) := by
  obtain ⟨a, b, e, h1, h2, h3, h4⟩ := span_split p s
  rw [h1, h2]
  subst e
  have ha : ∀ c ∈ toScalar a, p c = true := by
    intro c hc
    by_cases h : c < 128
    · exact h3 c ((mem_toScalar h (isStr_suffix hs).1).1 hc)
    · exact hp c (by omega)
  cases b with
  | nil =>
    rw [List.append_nil]
    have := span_of (b := []) ha (by simp)
    rw [List.append_nil] at this
    exact this
  | cons c cs =>
    have hc : c < 128 := by
      by_cases h : c < 128
      · exact h
      · have := hp c (by omega); rw [h4 c rfl] at this; cases this
    rw [toScalar_append hc, toScalar_cons hc]
    exact span_of ha (by intro d hd; exact h4 d hd)

/-- cutting off ASCII characters -/
theorem toScalar_ascii_span {p : Nat → Bool} (hp : ∀ c, 128 ≤ c → p c = false) {s : Str} (hs : IsStr s) :
    (toScalar s).takeWhile p = s.takeWhile p ∧ (toScalar s).dropWhile p = toScalar (s.dropWhile p) := by
  obtain ⟨a, b, e, h1, h2, h3, h4⟩ := span_split p s
  rw [h1, h2]
  subst e
  rw [toScalar_asciiPrefix (fun c hc => by
    by_cases h : c < 128
    · exact h
    · have := h3 c hc; rw [hp c (by omega)] at this; cases this)]
  refine span_of h3 ?_
  intro d hd
  by_cases h : d < 128
  · exact h4 d ((head_toScalar h (isStr_suffix hs).2).1 hd)
  · exact hp d (by omega)

theorem toScalar_splitAtLast {c : Nat} (hc : c < 128) {s : Str} (hs : IsStr s) :
    splitAtLast c (toScalar s) = (splitAtLast c s).map fun p => (toScalar p.1, toScalar p.2) := by
  cases h : splitAtLast c s with
  | none =>
    have := splitAtLast_none.1 h
    exact splitAtLast_none.2 (mt (mem_toScalar hc hs).1 this)
  | some p =>
    obtain ⟨a, b⟩ := p
    obtain ⟨e, hb⟩ := splitAtLast_some h
    subst e
    rw [toScalar_append hc]
    refine splitAtLast_append ?_
    exact mt (mem_toScalar hc (fun x hx => hs x (by simp [hx]))).1 hb

theorem toScalar_splitAtFirst {c : Nat} (hc : c < 128) {s : Str} (hs : IsStr s) :
    splitAtFirst c (toScalar s) = (splitAtFirst c s).map fun p => (toScalar p.1, toScalar p.2) := by
  cases h : splitAtFirst c s with
  | none =>
    have := splitAtFirst_none.1 h
    exact splitAtFirst_none.2 (mt (mem_toScalar hc hs).1 this)
  | some p =>
    obtain ⟨a, b⟩ := p
    obtain ⟨e, hb⟩ := splitAtFirst_some h
    subst e
    rw [toScalar_append hc]
    refine splitAtFirst_append ?_
    exact mt (mem_toScalar hc (fun x hx => hs x (by simp [hx]))).1 hb

theorem toScalar_splitOn {c : Nat} (hc : c < 128) (s : Str) (hs : IsStr s) :
    splitOn c (toScalar s) = (splitOn c s).map toScalar := by
  rcases h : splitAtFirst c s with _ | ⟨a, b⟩
  · have := splitAtFirst_none.1 h
    rw [splitOn_no_sep this, splitOn_no_sep (mt (mem_toScalar hc hs).1 this)]; rfl
  · obtain ⟨e, ha⟩ := splitAtFirst_some h
    have hl : b.length < s.length := by rw [e]; simp; omega
    have hsa : IsStr a := fun x hx => hs x (by simp [e, hx])
    have hsb : IsStr b := fun x hx => hs x (by simp [e, hx])
    have ih := toScalar_splitOn hc b hsb
    rw [e, toScalar_append hc, splitOn_append ha, splitOn_append (mt (mem_toScalar hc hsa).1 ha), ih]; rfl
termination_by s.length

theorem pathPieces_split {sp : Bool} (s : Str) : ∃ a b, s = a ++ b ∧ (∀ c ∈ a, isPathSep sp c = false) ∧
    (b = [] ∧ pathPieces sp s = [a] ∨ ∃ c b', b = c :: b' ∧ isPathSep sp c = true ∧ pathPieces sp s = a :: pathPieces sp b') := by
  induction s with
  | nil => exact ⟨[], [], rfl, by simp, .inl ⟨rfl, rfl⟩⟩
  | cons c cs ih =>
    by_cases hc : isPathSep sp c = true
    · refine ⟨[], c :: cs, rfl, by simp, .inr ⟨c, cs, rfl, hc, ?_⟩⟩
      conv => lhs; unfold pathPieces
      rw [if_pos hc]
    · obtain ⟨a, b, e, ha, h⟩ := ih
      refine ⟨c :: a, b, by rw [e]; rfl, ?_, ?_⟩
      · intro x hx
        rcases List.mem_cons.1 hx with rfl | hx
        · simpa using hc
        · exact ha x hx
      · rcases h with ⟨h1, h2⟩ | ⟨d, b', h1, h2, h3⟩
        · refine .inl ⟨h1, ?_⟩
          conv => lhs; unfold pathPieces
          rw [if_neg hc, h2]
        · refine .inr ⟨d, b', h1, h2, ?_⟩
          conv => lhs; unfold pathPieces
          rw [if_neg hc, h3]

theorem pathPieces_one {sp : Bool} {s : Str} (h : ∀ c ∈ s, isPathSep sp c = false) : pathPieces sp s = [s] := by
  induction s with
  | nil => rfl
  | cons c cs ih =>
    unfold pathPieces
    rw [if_neg (by simp [h c (by simp)]), ih fun x hx => h x (by simp [hx])]

theorem pathPieces_cut {sp : Bool} {a : Str} (h : ∀ c ∈ a, isPathSep sp c = false) {d : Nat} (hd : isPathSep sp d = true)
    (b : Str) : pathPieces sp (a ++ d :: b) = a :: pathPieces sp b := by
  induction a with
  | nil => rw [List.nil_append]; conv => lhs; unfold pathPieces
           rw [if_pos hd]
  | cons c cs ih =>
    rw [List.cons_append]
    conv => lhs; unfold pathPieces
    rw [if_neg (by simp [h c (by simp)]), ih fun x hx => h x (by simp [hx])]

theorem isPathSep_ascii {sp : Bool} {c : Nat} (h : isPathSep sp c = true) : c < 128 := by
  unfold isPathSep at h
  simp only [Bool.or_eq_true, Bool.and_eq_true, decide_eq_true_eq] at h
  omega

theorem toScalar_pathPieces {sp : Bool} (s : Str) (hs : IsStr s) :
    pathPieces sp (toScalar s) = (pathPieces sp s).map toScalar := by
  obtain ⟨a, b, e, ha, h⟩ := pathPieces_split (sp := sp) s
  have hsa : IsStr a := fun x hx => hs x (by simp [e, hx])
  have ha' : ∀ c ∈ toScalar a, isPathSep sp c = false := by
    intro c hc
    by_cases h : c < 128
    · exact ha c ((mem_toScalar h hsa).1 hc)
    · cases h' : isPathSep sp c with
      | false => rfl
      | true => exact absurd (isPathSep_ascii h') h
  rcases h with ⟨h1, h2⟩ | ⟨d, b', h1, h2, h3⟩
  · subst h1
    rw [h2]
    rw [List.append_nil] at e
    rw [e, pathPieces_one ha']; rfl
  · have hl : b'.length < s.length := by rw [e, h1]; simp; omega
    have hsb : IsStr b' := fun x hx => hs x (by simp [e, h1, hx])
    have ih := toScalar_pathPieces (sp := sp) b' hsb
    rw [h3, e, h1, toScalar_append (isPathSep_ascii h2), pathPieces_cut ha' h2, ih]; rfl
termination_by s.length

/-! ### The host -/

/-- the effect of a text on `hostSpan`: `none` when the host ends inside it, else whether it leaves
the scan inside brackets -/
def hostPass (sp : Bool) : Bool → Str → Option Bool
  | i, [] => some i
  | i, c :: cs =>
    if (c = c!":" && !i) || isAuthorityEnd sp c then none
    else hostPass sp (if c = c!"[" then true else if c = c!"]" then false else i) cs

theorem isAuthorityEnd_ascii {sp : Bool} {c : Nat} (h : isAuthorityEnd sp c = true) : c < 128 := by
  unfold isAuthorityEnd at h
  cases sp <;> simp at h <;> omega

theorem hostPass_filter (sp : Bool) (s : Str) : ∀ i, hostPass sp i s = hostPass sp i (s.filter (· < 128)) := by
  induction s with
  | nil => intro i; rfl
  | cons c cs ih =>
    intro i
    by_cases hc : c < 128
    · rw [List.filter_cons, if_pos (by simpa using hc)]
      conv => lhs; unfold hostPass
      conv => rhs; unfold hostPass
      split
      · rfl
      · exact ih _
    · rw [List.filter_cons, if_neg (by simpa using hc)]
      conv => lhs; unfold hostPass
      have h1 : ¬ ((decide (c = c!":") && !i || isAuthorityEnd sp c) = true) := by
        intro h
        simp only [Bool.or_eq_true, Bool.and_eq_true, decide_eq_true_eq] at h
        rcases h with h | h
        · omega
        · exact hc (isAuthorityEnd_ascii h)
      rw [if_neg h1, if_neg (by omega), if_neg (by omega)]
      exact ih _

theorem hostSpan_split (sp : Bool) (s : Str) : ∀ i, ∃ a b j, s = a ++ b ∧ hostSpan sp i s = (a, b) ∧
    hostPass sp i a = some j ∧ ∀ c, b.head? = some c → ((c = 58 ∧ j = false) ∨ isAuthorityEnd sp c = true) := by
  induction s with
  | nil => intro i; exact ⟨[], [], i, rfl, rfl, rfl, by simp⟩
  | cons c cs ih =>
    intro i
    by_cases h : (decide (c = c!":") && !i || isAuthorityEnd sp c) = true
    · refine ⟨[], c :: cs, i, rfl, ?_, rfl, ?_⟩
      · unfold hostSpan; rw [if_pos h]
      · intro d hd
        simp only [List.head?_cons, Option.some.injEq] at hd
        subst hd
        simpa using h
    · obtain ⟨a, b, j, e, h1, h2, h3⟩ := ih (if c = c!"[" then true else if c = c!"]" then false else i)
      refine ⟨c :: a, b, j, by rw [e]; rfl, ?_, ?_, h3⟩
      · conv => lhs; unfold hostSpan
        rw [if_neg h, h1]
      · unfold hostPass; rw [if_neg h]; exact h2

theorem hostSpan_of (sp : Bool) (a b : Str) : ∀ i j, hostPass sp i a = some j →
    (∀ c, b.head? = some c → ((c = 58 ∧ j = false) ∨ isAuthorityEnd sp c = true)) → hostSpan sp i (a ++ b) = (a, b) := by
  induction a with
  | nil =>
    intro i j h hb
    simp only [hostPass, Option.some.injEq] at h
    subst h
    rw [List.nil_append]
    cases b with
    | nil => rfl
    | cons c cs =>
      have := hb c rfl
      unfold hostSpan
      rw [if_pos (by simpa using this)]
  | cons c cs ih =>
    intro i j h hb
    unfold hostPass at h
    split at h
    · cases h
    · next hc =>
      rw [List.cons_append]
      conv => lhs; unfold hostSpan
      rw [if_neg hc, ih _ _ h hb]

theorem toScalar_hostSpan (sp : Bool) (i : Bool) {s : Str} (hs : IsStr s) :
    hostSpan sp i (toScalar s) = (toScalar (hostSpan sp i s).1, toScalar (hostSpan sp i s).2) := by
  obtain ⟨a, b, j, e, h1, h2, h3⟩ := hostSpan_split sp s i
  rw [h1]
  subst e
  have hsa := (isStr_suffix hs).1
  have h2' : hostPass sp i (toScalar a) = some j := by
    rw [hostPass_filter, toScalar_filter a hsa, ← hostPass_filter, h2]
  cases b with
  | nil =>
    rw [List.append_nil]
    have := hostSpan_of sp (toScalar a) [] i j h2' (by simp)
    rw [List.append_nil] at this
    exact this
  | cons c cs =>
    have hc : c < 128 := by
      rcases h3 c rfl with h | h
      · omega
      · exact isAuthorityEnd_ascii h
    rw [toScalar_append hc, toScalar_cons hc]
    exact hostSpan_of sp (toScalar a) (c :: toScalar cs) i j h2' (by intro d hd; exact h3 d hd)

theorem toScalar_idem {s : Str} (hs : IsStr s) : toScalar (toScalar s) = toScalar s :=
  toScalar_of_scalar _ (toScalar_isScalar s hs)

theorem utf8Encode_toScalar {s : Str} (hs : IsStr s) : utf8Encode (toScalar s) = utf8Encode s := by
  unfold utf8Encode; rw [toScalar_idem hs]

theorem encode_toScalar {s : Str} (hs : IsStr s) (safe : Nat → Bool) :
    utf8PercentEncode (toScalar s) safe = utf8PercentEncode s safe := by
  rw [utf8PercentEncode_false, utf8PercentEncode_false, utf8Encode_toScalar hs]

theorem any_toScalar {p : Nat → Bool} (hp : ∀ c, 128 ≤ c → p c = false) {s : Str} (hs : IsStr s) :
    (toScalar s).any p = s.any p := by
  have h := toScalar_filter s hs
  have : ∀ l : Str, l.any p = (l.filter (· < 128)).any p := by
    intro l
    rw [List.any_filter]
    congr 1
    funext c
    by_cases hc : c < 128
    · simp [hc]
    · simp [hp c (by omega)]
  rw [this, h, ← this]

/-! ### IPv6 -/

theorem isDigit_ascii {c : Nat} (h : isDigit c = true) : c < 128 := by
  simp [isDigit] at h; omega
theorem isHex_ascii {c : Nat} (h : isHex c = true) : c < 128 := by
  simp [isHex, isDigit] at h; omega
theorem isAlpha_ascii {c : Nat} (h : isAlpha c = true) : c < 128 := by
  simp [isAlpha] at h; omega

theorem badIPv4Part_ascii {x : Str} (h : badIPv4Part x = false) : ∀ c ∈ x, c < 128 := by
  intro c hc
  unfold badIPv4Part at h
  simp only [Bool.or_eq_false_iff, List.any_eq_false] at h
  have := h.1.2 c hc
  simp at this
  exact isDigit_ascii this

theorem badIPv4Part_toScalar {x : Str} (hs : IsStr x) : badIPv4Part (toScalar x) = badIPv4Part x := by
  have := asciiTest (f := fun x => !badIPv4Part x) (fun s h => badIPv4Part_ascii (by simpa using h)) hs
  simpa using congrArg Bool.not this

theorem v6IPv4_toScalar (env : Env) (st : V6) (b : Bool) {x : Str} (hs : IsStr x) :
    v6IPv4 env { st with piece := toScalar x } b = v6IPv4 env { st with piece := x } b := by
  unfold v6IPv4
  dsimp only
  split
  · rfl
  · have hm : ∀ y ∈ splitOn c!"." x, IsStr y := fun y hy c hc => hs c (mem_splitOn hy c hc).1
    rw [toScalar_splitOn (by decide) x hs, List.length_map]
    have hany : ((splitOn c!"." x).map toScalar).any badIPv4Part = (splitOn c!"." x).any badIPv4Part := by
      rw [List.any_map]
      rw [Bool.eq_iff_iff, List.any_eq_true, List.any_eq_true]
      constructor
      · rintro ⟨y, hy, h⟩; exact ⟨y, hy, by rw [← badIPv4Part_toScalar (hm y hy)]; exact h⟩
      · rintro ⟨y, hy, h⟩; exact ⟨y, hy, by simp only [Function.comp]; rw [badIPv4Part_toScalar (hm y hy)]; exact h⟩
    rw [hany]
    split
    · rfl
    · next h =>
      have hid : (splitOn c!"." x).map toScalar = splitOn c!"." x := by
        conv => rhs; rw [← List.map_id (splitOn c!"." x)]
        refine List.map_congr_left ?_
        intro y hy
        refine toScalar_id (badIPv4Part_ascii ?_)
        simp only [Bool.or_eq_true, not_or, Bool.not_eq_true, List.any_eq_false] at h
        simpa using h.2 y hy
      rw [hid]

theorem v6Piece_toScalar (env : Env) (st : V6) (b : Bool) {x : Str} (hs : IsStr x) (hx : x ≠ []) :
    v6Piece env { st with piece := toScalar x } b = v6Piece env { st with piece := x } b := by
  unfold v6Piece
  dsimp only
  have h0 : x.isEmpty = false := by simpa using hx
  rw [toScalar_isEmpty hs, h0]
  simp only [Bool.false_eq_true, if_false]
  have hdot : (toScalar x).contains c!"." = x.contains c!"." := by
    rw [Bool.eq_iff_iff, List.contains_iff_mem, List.contains_iff_mem]
    exact mem_toScalar (by decide) hs
  rw [hdot]
  split
  · have ht := asciiTest (f := fun x => !(decide (x.length > 4) || x.any (!isHex ·)))
      (fun s h c hc => by
        simp only [Bool.not_eq_true', Bool.or_eq_false_iff, List.any_eq_false] at h
        have := h.2 c hc
        simp at this
        exact isHex_ascii this) hs
    have ht' := congrArg Bool.not ht
    simp only [Bool.not_not] at ht'
    rw [ht']
    split
    · rfl
    · next h =>
      have : toScalar x = x := toScalar_id (fun c hc => by
        simp only [Bool.or_eq_true, not_or, Bool.not_eq_true, List.any_eq_false] at h
        have := h.2 c hc
        simp at this
        exact isHex_ascii this)
      rw [this]
  · exact v6IPv4_toScalar env st b hs

theorem v6IPv4_clears (env : Env) (st : V6) (b : Bool) {st' : V6} {log : Log} (h : v6IPv4 env st b = ⟨.ok st', log⟩) :
    st'.piece = [] := by
  unfold v6IPv4 at h
  dsimp only at h
  split at h
  · cases h
  · split at h
    · cases h
    · split at h
      · cases h
      · split at h
        · cases h
        · split at h
          · split at h
            · cases h; rfl
            · cases h
          · cases h

theorem v6Piece_clears (env : Env) (st : V6) (b : Bool) {st' : V6} {log : Log} (h : v6Piece env st b = ⟨.ok st', log⟩) :
    st'.piece = [] := by
  unfold v6Piece at h
  split at h
  · next he =>
    simp only [List.isEmpty_iff] at he
    cases h; exact he
  · split at h
    · split at h
      · cases h
      · split at h
        · cases h
        · split at h
          · cases h; rfl
          · cases h
    · exact v6IPv4_clears env st b h

/-- reading a text without ":" -/
theorem v6Loop_text (env : Env) (b : Str) : ∀ (a : Str), a ≠ [] → 58 ∉ a → ∀ st : V6, v6Loop env (a ++ b) st =
    if st.pieceIndex ≥ 8 then .err .ipv6Parse [.ev .ipv6TooManyPieces]
    else v6Loop env b { st with piece := st.piece ++ a, prevColon := false } := by
  intro a
  induction a with
  | nil => intro h; exact absurd rfl h
  | cons c cs ih =>
    intro _ hc st
    have hc0 : c ≠ 58 := fun h => hc (by simp [h])
    rw [List.cons_append]
    conv => lhs; unfold v6Loop
    by_cases h8 : st.pieceIndex ≥ 8
    · rw [if_pos h8, if_pos h8]
    · rw [if_neg h8, if_neg h8, if_pos hc0]
      by_cases hcs : cs = []
      · subst hcs; rfl
      · rw [ih hcs (fun h => hc (by simp [h]))]
        dsimp only
        rw [if_neg h8]
        simp

theorem v6Loop_toScalar (env : Env) (s : Str) (hs : IsStr s) (st : V6) (hp : st.piece = []) :
    v6Loop env (toScalar s) st = v6Loop env s st := by
  rcases h : splitAtFirst 58 s with _ | ⟨a, b⟩
  · have hn := splitAtFirst_none.1 h
    by_cases h0 : s = []
    · subst h0; rfl
    · have h0' : toScalar s ≠ [] := by
        intro h; have := toScalar_isEmpty hs; rw [h] at this; exact h0 (by simpa using this.symm)
      have hn' : 58 ∉ toScalar s := mt (mem_toScalar (by decide) hs).1 hn
      have e1 := v6Loop_text env [] s h0 hn st
      have e2 := v6Loop_text env [] (toScalar s) h0' hn' st
      rw [List.append_nil] at e1 e2
      rw [e1, e2]
      split
      · rfl
      · next h8 =>
        rw [hp, List.nil_append, List.nil_append]
        unfold v6Loop
        dsimp only
        rw [if_neg h8, if_neg h8, if_neg (by simp), if_neg (by simp)]
        exact v6Piece_toScalar env { st with prevColon := false } false hs h0
  · obtain ⟨e, ha⟩ := splitAtFirst_some h
    have hl : b.length < s.length := by rw [e]; simp; omega
    have hsa : IsStr a := fun x hx => hs x (by simp [e, hx])
    have hsb : IsStr b := fun x hx => hs x (by simp [e, hx])
    have ih := fun st hp => v6Loop_toScalar env b hsb st hp
    rw [e, toScalar_append (by decide)]
    by_cases h0 : a = []
    · subst h0
      rw [toScalar_nil, List.nil_append, List.nil_append]
      unfold v6Loop
      by_cases h8 : st.pieceIndex ≥ 8
      · rw [if_pos h8, if_pos h8]
      · rw [if_neg h8, if_neg h8]
        simp only [ne_eq, not_true_eq_false, if_false]
        by_cases hpc : st.prevColon = true
        · rw [if_pos hpc, if_pos hpc]
          by_cases hco : st.compress.isSome = true
          · rw [if_pos hco, if_pos hco]
          · rw [if_neg hco, if_neg hco]
            exact ih _ hp
        · rw [if_neg hpc, if_neg hpc]
          rcases hv : v6Piece env st true with ⟨_ | st', log⟩
          · rfl
          · dsimp only
            exact ih _ (v6Piece_clears env st true hv)
    · have h0' : toScalar a ≠ [] := by
        intro h; have := toScalar_isEmpty hsa; rw [h] at this; exact h0 (by simpa using this.symm)
      rw [v6Loop_text env _ _ h0' (mt (mem_toScalar (by decide) hsa).1 ha), v6Loop_text env _ _ h0 ha]
      split
      · rfl
      · next h8 =>
        rw [hp, List.nil_append, List.nil_append]
        unfold v6Loop
        dsimp only
        rw [if_neg h8, if_neg h8, if_neg (by simp), if_neg (by simp), if_neg (by simp), if_neg (by simp)]
        have := v6Piece_toScalar env { st with prevColon := false } true hsa h0
        dsimp only at this
        rw [this]
        rcases hv : v6Piece env { st with piece := a, prevColon := false } true with ⟨_ | st', log⟩
        · rfl
        · dsimp only
          exact ih _ (v6Piece_clears env _ true hv)
termination_by s.length

theorem v6Run_toScalar (env : Env) {s : Str} (hs : IsStr s) (st : V6) (hp : st.piece = []) :
    v6Run env (toScalar s) st = v6Run env s st := by
  unfold v6Run; rw [v6Loop_toScalar env s hs st hp]

theorem ipv6Parse_toScalar (env : Env) {s : Str} (hs : IsStr s) : ipv6Parse env (toScalar s) = ipv6Parse env s := by
  by_cases h1 : s.head? = some 58
  · cases s with
    | nil => simp at h1
    | cons c r =>
      simp only [List.head?_cons, Option.some.injEq] at h1
      subst h1
      rw [toScalar_cons (by decide)]
      have hr : IsStr r := fun c hc => hs c (by simp [hc])
      by_cases h2 : r.head? = some 58
      · cases r with
        | nil => simp at h2
        | cons d t =>
          simp only [List.head?_cons, Option.some.injEq] at h2
          subst h2
          rw [toScalar_cons (by decide)]
          exact v6Run_toScalar env (fun c hc => hr c (by simp [hc])) _ rfl
      · have h2' := mt (head_toScalar (by decide) hr).1 h2
        have key : ∀ t : Str, t.head? ≠ some 58 → ipv6Parse env (58 :: t) = .err .ipv6Parse [.ev .ipv6InvalidCompression] := by
          intro t ht
          cases t with
          | nil => rfl
          | cons d t =>
            unfold ipv6Parse
            have : d ≠ 58 := by simpa using ht
            split
            · next heq => simp at heq; exact absurd heq.1 this
            · rfl
            · next h => exact absurd rfl (h (d :: t))
        rw [key _ h2', key _ h2]
  · have h1' := mt (head_toScalar (by decide) hs).1 h1
    have key : ∀ t : Str, t.head? ≠ some 58 → ipv6Parse env t = v6Run env t {} := by
      intro t ht
      cases t with
      | nil => rfl
      | cons d t =>
        have hd : d ≠ 58 := by simpa using ht
        unfold ipv6Parse
        split
        · next heq => simp at heq; exact absurd heq.1 hd
        · next heq => simp at heq; exact absurd heq.1 hd
        · rfl
    rw [key _ h1', key _ h1, v6Run_toScalar env hs {} rfl]

/-! ### Host parsing -/

theorem last_iff {c : Nat} (hc : c ≠ 0) {s : Str} : s.getLastD 0 = c ↔ ∃ a, splitAtLast c s = some (a, []) := by
  constructor
  · intro h
    rcases List.eq_nil_or_concat s with rfl | ⟨a, d, rfl⟩
    · exact absurd h.symm hc
    · rw [List.concat_eq_append] at *
      have : d = c := by simpa [List.getLastD_eq_getLast?] using h
      subst this
      exact ⟨a, splitAtLast_append (by simp)⟩
  · rintro ⟨a, h⟩
    rw [(splitAtLast_some h).1]
    simp [List.getLastD_eq_getLast?]

theorem toScalar_eq_nil {s : Str} (hs : IsStr s) : toScalar s = [] ↔ s = [] := by
  rw [← List.isEmpty_iff, ← List.isEmpty_iff, toScalar_isEmpty hs]

theorem getLast_toScalar {c : Nat} (hc : c ≠ 0) (hc' : c < 128) {s : Str} (hs : IsStr s) :
    (toScalar s).getLastD 0 = c ↔ s.getLastD 0 = c := by
  rw [last_iff hc, last_iff hc, toScalar_splitAtLast hc' hs]
  constructor
  · rintro ⟨a, h⟩
    rw [Option.map_eq_some_iff] at h
    obtain ⟨⟨x, y⟩, h1, h2⟩ := h
    simp only [Prod.mk.injEq] at h2
    have hy : IsStr y := fun d hd => hs d (by rw [(splitAtLast_some h1).1]; simp [hd])
    exact ⟨x, by rw [h1, (toScalar_eq_nil hy).1 h2.2]⟩
  · rintro ⟨a, h⟩
    exact ⟨toScalar a, by rw [h]; rfl⟩

theorem isForbiddenHost_ascii {c : Nat} (h : isForbiddenHost c = true) : c < 128 := by
  revert h
  unfold isForbiddenHost
  simp
  omega

theorem parseOpaqueHost_toScalar {s : Str} (hs : IsStr s) : (parseOpaqueHost (toScalar s)).res = (parseOpaqueHost s).res := by
  unfold parseOpaqueHost
  rw [any_toScalar (fun c hc => by
    cases h : isForbiddenHost c with
    | false => rfl
    | true => exact absurd (isForbiddenHost_ascii h) (by omega)) hs, encode_toScalar hs]
  split <;> rfl

theorem hostParse_toScalar (env : Env) (b : Bool) {s : Str} (hs : IsStr s) :
    (hostParse env (toScalar s) b).res = (hostParse env s b).res := by
  cases s with
  | nil => rfl
  | cons c r =>
    have hr : IsStr r := fun d hd => hs d (by simp [hd])
    by_cases hc : c = 91
    · subst hc
      have h1 := getLast_toScalar (c := 93) (by decide) (by decide) hs
      rw [toScalar_cons (by decide)] at h1 ⊢
      unfold hostParse
      dsimp only
      rw [if_pos rfl, if_pos rfl]
      by_cases hl : (91 :: r).getLastD 0 = 93
      · rw [if_neg (fun h => h (h1.2 hl)), if_neg (fun h => h hl)]
        have hd : toScalar r.dropLast = (toScalar r).dropLast := by
          obtain ⟨a, ha⟩ := (last_iff (by decide)).1 hl
          have e := (splitAtLast_some ha).1
          cases a with
          | nil => simp at e
          | cons x xs =>
            simp only [List.cons_append, List.cons.injEq] at e
            rw [e.2, toScalar_append (by decide), List.dropLast_concat, toScalar_nil, List.dropLast_concat]
        rw [← hd, ipv6Parse_toScalar env (fun d hd => hr d (List.dropLast_subset r hd))]
      · rw [if_pos (mt h1.1 hl), if_pos hl]
    · have hne : ∀ t : Str, t ≠ [] → t.head? ≠ some 91 → (hostParse env t b).res =
          if b then (match (parseOpaqueHost t).res with
            | .ok s => .ok (.str s)
            | .error e => .error e)
          else (match domainToAscii env (utf8Decode (stringPercentDecode t)) false with
            | ⟨.error e, log⟩ => Res.err e log
            | ⟨.ok ascii, log⟩ =>
              if ascii.any isForbiddenDomain then
                Res.err .hostParse (.ev .domainInvalidCodePoint :: log)
              else if isEndsInANumber env ascii then
                match ipv4Parse env ascii with
                | ⟨.ok n, log'⟩ => .ok (.ipv4 n) (log' ++ log)
                | ⟨.error e, log'⟩ => .err e (log' ++ log)
              else .ok (.str ascii) log : Res Host).res := by
        intro t h1 h2
        cases t with
        | nil => exact absurd rfl h1
        | cons d ds =>
          unfold hostParse
          dsimp only
          rw [if_neg (show ¬ d = 91 by simpa using h2)]
          cases b with
          | true =>
            rw [if_pos rfl, if_pos rfl]
            rcases parseOpaqueHost (d :: ds) with ⟨_ | x, log⟩ <;> rfl
          | false => rfl
      have h91 : (c :: r).head? ≠ some 91 := by simpa using hc
      rw [hne _ (by simp) h91, hne _ (by rw [ne_eq, toScalar_eq_nil hs]; simp) (mt (head_toScalar (by decide) hs).1 h91)]
      rw [parseOpaqueHost_toScalar hs]
      have : stringPercentDecode (toScalar (c :: r)) = stringPercentDecode (c :: r) := by
        unfold stringPercentDecode; rw [utf8Encode_toScalar hs]
      rw [this]

end Urlstd
