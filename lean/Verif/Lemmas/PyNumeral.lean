/-
Every Python numeral is accepted by the model of `int()`.
-/
import Verif.Lemmas.IPv4

set_option linter.unusedSimpArgs false

namespace Urlstd

theorem digit_not_space {base c : Nat} (hb : base ≤ 16) (h : digitValue c < base) :
    isPySpace c = false ∧ c ≠ 95 ∧ c ≠ 43 ∧ c ≠ 45 ∧ c ≠ 120 ∧ c ≠ 88 ∧ c ≠ 111 ∧ c ≠ 79 := by
  have h16 := (digitValue_lt16 (c := c)).1 (by omega)
  rw [isHex_iff] at h16
  refine ⟨?_, by omega, by omega, by omega, by omega, by omega, by omega, by omega⟩
  unfold isPySpace
  simp only [Bool.or_eq_false_iff, Bool.and_eq_false_iff, decide_eq_false_iff_not, beq_eq_false_iff_ne]
  omega

theorem scanDigits_numeral_append {base : Nat} (hb : base ≤ 16) {g : Str} (hg : IsNumeral base g) (s : Str) :
    ∀ (us : Bool) (acc k : Nat), g ≠ [] →
    ∃ acc', scanDigits base (g ++ s) us acc k = scanDigits base s false acc' (k + g.length) := by
  induction g with
  | nil => intro us acc k h; exact absurd rfl h
  | cons c cs ih =>
    intro us acc k _
    have hc := hg c (by simp)
    rw [List.cons_append, scanDigits, if_neg (digit_not_space hb hc).2.1, if_pos hc]
    by_cases he : cs = []
    · subst he; exact ⟨_, rfl⟩
    · obtain ⟨a, h⟩ := ih (fun d hd => hg d (by simp [hd])) false (acc * base + digitValue c) (k + 1) he
      exact ⟨a, by rw [h]; congr 1; simp; omega⟩

theorem scanDigits_space {base : Nat} (hb : base ≤ 16) {r : Str} (hr : ∀ c ∈ r, isPySpace c = true) (acc k : Nat)
    (hk : k ≠ 0) : scanDigits base r false acc k = some (acc, k, r) := by
  cases r with
  | nil => simp [scanDigits, hk]
  | cons c cs =>
    have hc := hr c (by simp)
    rw [scanDigits, if_neg, if_neg]
    · simp [hk]
    · intro h; rw [(digit_not_space hb h).1] at hc; cases hc
    · rintro rfl; simp [isPySpace] at hc

theorem scanDigits_intercalate {base : Nat} (hb : base ≤ 16) {r : Str} (hr : ∀ c ∈ r, isPySpace c = true) :
    ∀ {groups : List Str}, groups ≠ [] → (∀ g ∈ groups, g ≠ [] ∧ IsNumeral base g) → ∀ (us : Bool) (acc k : Nat),
    ∃ acc' k', scanDigits base ([c!"_"].intercalate groups ++ r) us acc k = some (acc', k', r) ∧
      k' ≤ k + ([c!"_"].intercalate groups).length := by
  intro groups
  induction groups with
  | nil => intro h; exact absurd rfl h
  | cons g gs ih =>
    intro _ hg us acc k
    obtain ⟨hne, hgn⟩ := hg g (by simp)
    cases gs with
    | nil =>
      have e : [c!"_"].intercalate [g] = g := by simp [List.intercalate]
      rw [e]
      obtain ⟨a, h⟩ := scanDigits_numeral_append hb hgn r us acc k hne
      have : g.length ≠ 0 := by simpa using hne
      exact ⟨a, k + g.length, by rw [h, scanDigits_space hb hr _ _ (by omega)], by omega⟩
    | cons g' gs' =>
      have e : [c!"_"].intercalate (g :: g' :: gs') = g ++ 95 :: [c!"_"].intercalate (g' :: gs') := by
        simp [List.intercalate]
      rw [e, List.append_assoc]
      obtain ⟨a, h⟩ := scanDigits_numeral_append hb hgn (95 :: [c!"_"].intercalate (g' :: gs') ++ r) us acc k hne
      have hl : g.length ≠ 0 := by simpa using hne
      rw [h, List.cons_append, scanDigits, if_pos rfl, if_neg (by simp; intro _ h; exact hne h)]
      obtain ⟨a', k', h', hk⟩ := ih (by simp) (fun x hx => hg x (by simp [hx])) true a (k + g.length)
      exact ⟨a', k', h', by simp only [List.length_append, List.length_cons]; omega⟩

theorem groups_mem {base : Nat} : ∀ {groups : List Str}, (∀ g ∈ groups, g ≠ [] ∧ IsNumeral base g) →
    ∀ d ∈ [c!"_"].intercalate groups, d = 95 ∨ digitValue d < base := by
  intro groups
  induction groups with
  | nil => intro _ d hd; simp [List.intercalate] at hd
  | cons g gs ih =>
    intro hg d hd
    have ih := ih (fun x hx => hg x (by simp [hx]))
    cases gs with
    | nil =>
      have e : [c!"_"].intercalate [g] = g := by simp [List.intercalate]
      rw [e] at hd
      exact .inr ((hg g (by simp)).2 d hd)
    | cons g' gs' =>
      have e : [c!"_"].intercalate (g :: g' :: gs') = g ++ 95 :: [c!"_"].intercalate (g' :: gs') := by
        simp [List.intercalate]
      rw [e] at hd
      rcases List.mem_append.1 hd with hd | hd
      · exact .inr ((hg g (by simp)).2 d hd)
      · rcases List.mem_cons.1 hd with hd | hd
        · exact .inl hd
        · exact ih d hd

/-- joined groups begin with a digit -/
theorem groups_head {base : Nat} {groups : List Str} (hne : groups ≠ [])
    (hg : ∀ g ∈ groups, g ≠ [] ∧ IsNumeral base g) :
    ∃ c t, [c!"_"].intercalate groups = c :: t ∧ digitValue c < base := by
  match groups, hne, hg with
  | (g :: gs), _, hg =>
    obtain ⟨h1, h2⟩ := hg g (by simp)
    match g, h1, h2 with
    | (c :: t), _, h2 =>
      cases gs with
      | nil => exact ⟨c, t, by simp [List.intercalate], h2 c (by simp)⟩
      | cons g' gs' => exact ⟨c, t ++ 95 :: [c!"_"].intercalate (g' :: gs'), by simp [List.intercalate], h2 c (by simp)⟩

theorem dropWhile_all_append {p : Nat → Bool} {l s : Str} (h : ∀ c ∈ l, p c = true) :
    (l ++ s).dropWhile p = s.dropWhile p := by
  induction l with
  | nil => rfl
  | cons c cs ih =>
    rw [List.cons_append, List.dropWhile_cons, if_pos (h c (by simp))]
    exact ih (fun d hd => h d (by simp [hd]))

theorem dropRadixPrefix_of_pre {base : Nat} (hb : base ≤ 16) {pre body r : Str} (hpre : pre ∈ Spec.pyRadixPrefixes base)
    {c : Nat} {t : Str} (hbody : body = c :: t) (hc : digitValue c < base)
    (ht : ∀ d ∈ body, d = 95 ∨ digitValue d < base) (hr : ∀ c ∈ r, isPySpace c = true) :
    dropRadixPrefix base (pre ++ (body ++ r)) = body ++ r := by
  have hc95 : c ≠ 95 := (digit_not_space hb hc).2.1
  have hnil : dropRadixPrefix base (body ++ r) = body ++ r := by
    subst hbody
    unfold dropRadixPrefix
    split
    · rename_i x cs heq
      have hx : x = 95 ∨ digitValue x < base ∨ isPySpace x = true := by
        have hm : x ∈ t ++ r := by
          rw [List.cons_append] at heq
          injection heq with _ h2
          rw [h2]; simp
        rcases List.mem_append.1 hm with hm | hm
        · rcases ht x (by simp [hm]) with h | h
          · exact .inl h
          · exact .inr (.inl h)
        · exact .inr (.inr (hr x hm))
      have hx' : x ≠ 120 ∧ x ≠ 88 ∧ x ≠ 111 ∧ x ≠ 79 := by
        rcases hx with rfl | hx | hx
        · decide
        · exact (digit_not_space hb hx).2.2.2.2
        · unfold isPySpace at hx
          simp only [Bool.or_eq_true, Bool.and_eq_true, decide_eq_true_eq, beq_iff_eq] at hx
          omega
      rw [if_neg (by simp [hx']), heq]
    · rfl
  unfold Spec.pyRadixPrefixes at hpre
  subst hbody
  split at hpre
  · rename_i h16
    subst h16
    simp only [List.mem_cons, List.not_mem_nil, or_false] at hpre
    rcases hpre with rfl | rfl | rfl | rfl | rfl
    · exact hnil
    all_goals
      simp only [List.cons_append, List.nil_append, dropRadixPrefix]
      simp [hc95]
  · split at hpre
    · rename_i h8
      subst h8
      simp only [List.mem_cons, List.not_mem_nil, or_false] at hpre
      rcases hpre with rfl | rfl | rfl | rfl | rfl
      · exact hnil
      all_goals
        simp only [List.cons_append, List.nil_append, dropRadixPrefix]
        simp [hc95]
    · simp only [List.mem_cons, List.not_mem_nil, or_false] at hpre
      subst hpre
      exact hnil

theorem pre_head {base : Nat} {pre s : Str} (hb : base ≤ 16) (hpre : pre ∈ Spec.pyRadixPrefixes base)
    {c : Nat} {t : Str} (hs : s = c :: t) (hc : digitValue c < base) :
    ∃ d u, pre ++ s = d :: u ∧ isPySpace d = false ∧ d ≠ 43 ∧ d ≠ 45 := by
  subst hs
  have h := digit_not_space hb hc
  have key : pre = [] ∨ ∃ u, pre = 48 :: u := by
    unfold Spec.pyRadixPrefixes at hpre
    split at hpre
    · simp only [List.mem_cons, List.not_mem_nil, or_false] at hpre
      rcases hpre with rfl | rfl | rfl | rfl | rfl <;> simp
    · split at hpre
      · simp only [List.mem_cons, List.not_mem_nil, or_false] at hpre
        rcases hpre with rfl | rfl | rfl | rfl | rfl <;> simp
      · simp only [List.mem_cons, List.not_mem_nil, or_false] at hpre
        exact .inl hpre
  rcases key with rfl | ⟨u, rfl⟩
  · exact ⟨c, t, rfl, h.1, h.2.2.1, h.2.2.2.1⟩
  · exact ⟨48, u ++ c :: t, rfl, by decide, by decide, by decide⟩

/-- `int()` accepts the Python numerals, up to the digit limit. -/
theorem pyInt_of_pyNumeral (env : Env) {base : Nat} (hb : base ≤ 16) {t : Str} (ha : ∀ c ∈ t, c < 128)
    (h : Spec.PyNumeral base t)
    (hl : base = 10 → env.maxStrDigits = 0 ∨ t.length ≤ env.maxStrDigits) :
    ∃ v : Nat, pyInt env base t = some (Int.ofNat v) ∨ (45 ∈ t ∧ pyInt env base t = some (-(Int.ofNat v))) := by
  obtain ⟨l, sign, pre, groups, r, rfl, hls, hrs, hsign, hpre, hne, hg⟩ := h
  rw [isPySpace_spec] at hls hrs
  have hg : ∀ g ∈ groups, g ≠ [] ∧ IsNumeral base g := fun g hgm => ⟨(hg g hgm).1, (radixText_iff hb).1 (hg g hgm).2⟩
  obtain ⟨c, t, hbody, hc⟩ := groups_head hne hg
  have hmem := groups_mem hg
  have hdrop := dropRadixPrefix_of_pre hb hpre hbody hc hmem hrs
  obtain ⟨v, k, hscan, hk⟩ := scanDigits_intercalate hb hrs hne hg false 0 0
  obtain ⟨d, u, hd, hds, hd1, hd2⟩ := pre_head (s := [c!"_"].intercalate groups ++ r) hb hpre
    (by rw [hbody]; rfl) hc
  have hnosign : splitSign (pre ++ ([c!"_"].intercalate groups ++ r)) =
      (false, pre ++ ([c!"_"].intercalate groups ++ r)) := by
    rw [hd]
    unfold splitSign
    split
    · rename_i heq; injection heq with h1 _; exact absurd h1 hd1
    · rename_i heq; injection heq with h1 _; exact absurd h1 hd2
    · rfl
  have hr0 : (r.dropWhile isPySpace).isEmpty = true := by
    have := dropWhile_all_append (s := []) hrs
    rw [List.append_nil] at this
    rw [this]; rfl
  have hlim : ∀ n, n ≥ k → (base = 10 → env.maxStrDigits = 0 ∨ n ≤ env.maxStrDigits) →
      (base == 10 && decide (0 < env.maxStrDigits) && decide (env.maxStrDigits < k)) = false := by
    intro n hn hl
    by_cases hb10 : base = 10
    · rcases hl hb10 with h | h
      · simp [h]
      · have : ¬ env.maxStrDigits < k := by omega
        simp [this]
    · simp [hb10]
  have hlim := hlim _ (by simp only [List.length_append]; omega) hl
  unfold pyInt
  rw [intTransform_ascii env ha, dropWhile_all_append hls]
  simp only [List.mem_cons, List.not_mem_nil, or_false] at hsign
  refine ⟨v, ?_⟩
  rcases hsign with rfl | rfl | rfl
  · left
    rw [List.nil_append, show (pre ++ ([c!"_"].intercalate groups ++ r)).dropWhile isPySpace =
      pre ++ ([c!"_"].intercalate groups ++ r) by rw [hd]; exact dropWhile_head hds]
    simp only [hnosign, hdrop, hscan, hr0, hlim, Bool.not_true, Bool.false_eq_true, if_false]
  · left
    rw [show (u!"+" ++ (pre ++ ([c!"_"].intercalate groups ++ r))).dropWhile isPySpace =
      43 :: (pre ++ ([c!"_"].intercalate groups ++ r)) from rfl]
    simp only [splitSign, hdrop, hscan, hr0, hlim, Bool.not_true, Bool.false_eq_true, if_false]
  · right
    refine ⟨by simp, ?_⟩
    rw [show (u!"-" ++ (pre ++ ([c!"_"].intercalate groups ++ r))).dropWhile isPySpace =
      45 :: (pre ++ ([c!"_"].intercalate groups ++ r)) from rfl]
    simp only [splitSign, hdrop, hscan, hr0, hlim, Bool.not_true, Bool.false_eq_true, if_false, if_true]

/-- an excluded part: the standard refuses it, the code reads a number -/
theorem not_strictPart (env : Env) {part : Str} (ha : ∀ c ∈ part, c < 128) (hm : 45 ∉ part)
    (hl : env.maxStrDigits = 0 ∨ part.length ≤ env.maxStrDigits) (h : ¬ Spec.StrictPart part) :
    Spec.ipv4Number part = none ∧ 0 ≤ (parseIPv4Number env part).1 := by
  unfold Spec.StrictPart at h
  have h : Spec.PyNumeral (Spec.partRadix part).1 (Spec.partRadix part).2 ∧
      ¬ Spec.RadixText (Spec.partRadix part).1 (Spec.partRadix part).2 := by
    by_contra hc
    exact h ⟨ha, fun h1 => by by_contra h2; exact hc ⟨h1, h2⟩⟩
  obtain ⟨h1, h2⟩ := h
  have dec : ∀ p : Str, (∀ c ∈ p, c < 128) → 45 ∉ p → (env.maxStrDigits = 0 ∨ p.length ≤ env.maxStrDigits) →
      Spec.PyNumeral 10 p → ∃ v : Nat, pyInt env 10 p = some (Int.ofNat v) := by
    intro p ha hm hl h
    obtain ⟨v, hv | hv⟩ := pyInt_of_pyNumeral env (by omega) ha h (fun _ => hl)
    · exact ⟨v, hv⟩
    · exact absurd hv.1 hm
  match part with
  | [] => exact absurd (fun c hc => by simp [Spec.partRadix] at hc) h2
  | [c] =>
    have e : Spec.partRadix [c] = (10, [c]) := by
      unfold Spec.partRadix; split <;> simp_all
    have e' : Spec.ipv4Number [c] = Spec.radixValue 10 0 [c] := by
      unfold Spec.ipv4Number; split <;> simp_all
    rw [e] at h1 h2
    obtain ⟨v, hv⟩ := dec _ ha hm hl h1
    rw [radixText_iff (by omega)] at h2
    refine ⟨by rw [e', radixValue_none (by omega) h2], ?_⟩
    simp only [parseIPv4Number, hv]
    exact Int.natCast_nonneg v
  | c0 :: c1 :: rest =>
    by_cases h0 : c0 = 48
    · subst h0
      by_cases hx : c1 = 120 ∨ c1 = 88
      · have e : Spec.partRadix (48 :: c1 :: rest) = (16, rest) := by simp [Spec.partRadix, hx]
        have e' : Spec.ipv4Number (48 :: c1 :: rest) = Spec.radixValue 16 0 rest := by simp [Spec.ipv4Number, hx]
        rw [e] at h1 h2
        obtain ⟨v, hv⟩ := pyInt_of_pyNumeral env (by omega) (fun c hc => ha c (by simp [hc])) h1 (by simp)
        have hv : pyInt env 16 rest = some (Int.ofNat v) := by
          rcases hv with hv | hv
          · exact hv
          · exact absurd (by simp [hv.1]) hm
        rw [radixText_iff (by omega)] at h2
        refine ⟨by rw [e', radixValue_none (by omega) h2], ?_⟩
        have hxb : ((48 == 48) && (c1 == 120 || c1 == 88)) = true := by simpa using hx
        unfold parseIPv4Number
        simp only
        rw [if_pos hxb]
        split
        · simp
        · rw [hv]; exact Int.natCast_nonneg v
      · have e : Spec.partRadix (48 :: c1 :: rest) = (8, c1 :: rest) := by simp [Spec.partRadix, hx]
        have e' : Spec.ipv4Number (48 :: c1 :: rest) = Spec.radixValue 8 0 (c1 :: rest) := by
          simp [Spec.ipv4Number, hx]
        rw [e] at h1 h2
        obtain ⟨v, hv⟩ := pyInt_of_pyNumeral env (by omega) (fun c hc => ha c (List.mem_cons_of_mem _ hc)) h1 (by simp)
        have hv : pyInt env 8 (c1 :: rest) = some (Int.ofNat v) := by
          rcases hv with hv | hv
          · exact hv
          · exact absurd (List.mem_cons_of_mem _ hv.1) hm
        rw [radixText_iff (by omega)] at h2
        refine ⟨by rw [e', radixValue_none (by omega) h2], ?_⟩
        have hxb : ¬ ((48 == 48) && (c1 == 120 || c1 == 88)) = true := by simpa using hx
        unfold parseIPv4Number
        simp only
        rw [if_neg hxb, if_pos (by decide), hv]
        exact Int.natCast_nonneg v
    · have e : Spec.partRadix (c0 :: c1 :: rest) = (10, c0 :: c1 :: rest) := by
        unfold Spec.partRadix
        split
        · rename_i heq; injection heq with h1 h2; exact absurd h1 h0
        · rfl
      have e' : Spec.ipv4Number (c0 :: c1 :: rest) = Spec.radixValue 10 0 (c0 :: c1 :: rest) := by
        unfold Spec.ipv4Number
        split
        · simp_all
        · rename_i heq; injection heq with h1 h2; exact absurd h1 h0
        · rfl
      rw [e] at h1 h2
      obtain ⟨v, hv⟩ := dec _ ha hm hl h1
      rw [radixText_iff (by omega)] at h2
      refine ⟨by rw [e', radixValue_none (by omega) h2], ?_⟩
      unfold parseIPv4Number
      simp only
      rw [if_neg (by simp [h0]), if_neg (by simp [h0]), hv]
      exact Int.natCast_nonneg v

/-- a part that `int()` refuses is not excluded -/
theorem strictPart_of_int (env : Env) {part : Str} (ha : ∀ c ∈ part, c < 128)
    (hl : env.maxStrDigits = 0 ∨ part.length ≤ env.maxStrDigits)
    (h : pyInt env (Spec.partRadix part).1 (Spec.partRadix part).2 = none) : Spec.StrictPart part := by
  have hb : (Spec.partRadix part).1 ≤ 16 ∧ (∀ c ∈ (Spec.partRadix part).2, c ∈ part) ∧
      (Spec.partRadix part).2.length ≤ part.length := by
    unfold Spec.partRadix
    split
    · split
      · exact ⟨by simp, fun c hc => by simp [hc], by simp; omega⟩
      · exact ⟨by simp, fun c hc => List.mem_cons_of_mem _ hc, by simp⟩
    · exact ⟨by simp, fun c hc => hc, Nat.le_refl _⟩
  refine ⟨ha, fun hp => ?_⟩
  obtain ⟨v, hv | hv⟩ := pyInt_of_pyNumeral env hb.1 (fun c hc => ha c (hb.2.1 c hc)) hp (fun _ => by omega)
  · rw [hv] at h; cases h
  · rw [hv.2] at h; cases h

end Urlstd
