/-
The model of `int()` computes the grammar of `Spec/PyInt`.
-/
import Verif.Spec.PyInt
import Verif.Lemmas.PyNumeral

set_option linter.unusedSimpArgs false

namespace Urlstd

open Spec (PyInt plainText plainChar)

theorem scanDigits_append_value {base : Nat} (hb : base ≤ 16) {g : Str} (hg : IsNumeral base g) (s : Str) :
    ∀ (us : Bool) (acc k : Nat), g ≠ [] →
    scanDigits base (g ++ s) us acc k =
      scanDigits base s false (g.foldl (fun a c => a * base + digitValue c) acc) (k + g.length) := by
  induction g with
  | nil => intro us acc k h; exact absurd rfl h
  | cons c cs ih =>
    intro us acc k _
    have hc := hg c (by simp)
    rw [List.cons_append, scanDigits, if_neg (digit_not_space hb hc).2.1, if_pos hc]
    by_cases he : cs = []
    · subst he; rfl
    · rw [ih (fun d hd => hg d (by simp [hd])) false _ (k + 1) he]
      simp only [List.foldl_cons, List.length_cons]
      rw [Nat.add_assoc, Nat.add_comm 1]

theorem scanDigits_value {base : Nat} (hb : base ≤ 16) {r : Str} (hr : ∀ c ∈ r, isPySpace c = true) :
    ∀ {groups : List Str}, groups ≠ [] → (∀ g ∈ groups, g ≠ [] ∧ IsNumeral base g) → ∀ (us : Bool) (acc k : Nat),
    scanDigits base ([c!"_"].intercalate groups ++ r) us acc k =
      some (groups.flatten.foldl (fun a c => a * base + digitValue c) acc, k + groups.flatten.length, r) := by
  intro groups
  induction groups with
  | nil => intro h; exact absurd rfl h
  | cons g gs ih =>
    intro _ hg us acc k
    obtain ⟨hne, hgn⟩ := hg g (by simp)
    have hl : g.length ≠ 0 := by simpa using hne
    cases gs with
    | nil =>
      have e : [c!"_"].intercalate [g] = g := by simp [List.intercalate]
      rw [e, scanDigits_append_value hb hgn r us acc k hne, scanDigits_space hb hr _ _ (by omega)]
      simp
    | cons g' gs' =>
      have e : [c!"_"].intercalate (g :: g' :: gs') = g ++ 95 :: [c!"_"].intercalate (g' :: gs') := by
        simp [List.intercalate]
      rw [e, List.append_assoc, scanDigits_append_value hb hgn _ us acc k hne, List.cons_append, scanDigits, if_pos rfl,
        if_neg (by simp; intro _ h; exact hne h), ih (by simp) (fun x hx => hg x (by simp [hx]))]
      simp only [List.flatten_cons, List.foldl_append, List.length_append]
      congr 3
      omega

/-- the numeral and its value, of a text that is ASCII already -/
def Reads (env : Env) (base : Nat) (p : Str) (v : Int) : Prop :=
  ∃ (l sign pre : Str) (groups : List Str) (r : Str) (m : Nat),
    p = l ++ (sign ++ (pre ++ ([c!"_"].intercalate groups ++ r))) ∧
    (∀ c ∈ l, isPySpace c = true) ∧ (∀ c ∈ r, isPySpace c = true) ∧
    sign ∈ [[], u!"+", u!"-"] ∧ pre ∈ Spec.pyRadixPrefixes base ∧ groups ≠ [] ∧ (∀ g ∈ groups, g ≠ []) ∧
    Spec.radixValue base 0 groups.flatten = some m ∧ v = (if sign = u!"-" then -(m : Int) else m) ∧
    (base = 10 → env.maxStrDigits = 0 ∨ groups.flatten.length ≤ env.maxStrDigits)

theorem groups_numeral {base : Nat} (hb : base ≤ 16) {groups : List Str} {m : Nat}
    (h : Spec.radixValue base 0 groups.flatten = some m) :
    (∀ g ∈ groups, IsNumeral base g) ∧ m = numVal base groups.flatten := by
  by_cases hn : IsNumeral base groups.flatten
  · rw [radixValue_numeral hb hn] at h
    exact ⟨fun g hg c hc => hn c (List.mem_flatten.2 ⟨g, hg, hc⟩), (Option.some.inj h).symm⟩
  · rw [radixValue_none hb hn] at h; cases h

/-- the body of `pyInt` behind the conversion to ASCII -/
def pyIntCore (env : Env) (base : Nat) (p : Str) : Option Int :=
  match scanDigits base (dropRadixPrefix base (splitSign (p.dropWhile isPySpace)).2) false 0 0 with
  | none => none
  | some (v, digits, rest) =>
    if !(rest.dropWhile isPySpace).isEmpty then none
    else if base == 10 && decide (0 < env.maxStrDigits) && decide (env.maxStrDigits < digits) then none
    else some (if (splitSign (p.dropWhile isPySpace)).1 then -(Int.ofNat v) else Int.ofNat v)

theorem pyInt_core (env : Env) (base : Nat) (t : Str) : pyInt env base t = pyIntCore env base (intTransform env t) := rfl

theorem core_of_reads {env : Env} {base : Nat} (hb : base ≤ 16) {p : Str} {v : Int} (h : Reads env base p v) :
    pyIntCore env base p = some v := by
  obtain ⟨l, sign, pre, groups, r, m, rfl, hls, hrs, hsign, hpre, hne, hg0, hm, rfl, hl⟩ := h
  obtain ⟨hn, rfl⟩ := groups_numeral hb hm
  have hg : ∀ g ∈ groups, g ≠ [] ∧ IsNumeral base g := fun g hgm => ⟨hg0 g hgm, hn g hgm⟩
  obtain ⟨c, t, hbody, hc⟩ := groups_head hne hg
  have hmem := groups_mem hg
  have hdrop := dropRadixPrefix_of_pre hb hpre hbody hc hmem hrs
  have hscan := scanDigits_value hb hrs hne hg false 0 0
  obtain ⟨d, u, hd, hds, hd1, hd2⟩ := pre_head (s := [c!"_"].intercalate groups ++ r) hb hpre (by rw [hbody]; rfl) hc
  have hnosign : splitSign (pre ++ ([c!"_"].intercalate groups ++ r)) =
      (false, pre ++ ([c!"_"].intercalate groups ++ r)) := by
    rw [hd]
    unfold splitSign
    split
    · rename_i heq; injection heq with h1 _; exact absurd h1 hd1
    · rename_i heq; injection heq with h1 _; exact absurd h1 hd2
    · rfl
  have hr0 : (r.dropWhile isPySpace).isEmpty = true := by
    have := dropWhile_all_append (s := []) hrs
    rw [List.append_nil] at this
    rw [this]; rfl
  have hlim : (base == 10 && decide (0 < env.maxStrDigits) && decide (env.maxStrDigits < 0 + groups.flatten.length)) = false := by
    by_cases hb10 : base = 10
    · rcases hl hb10 with h | h
      · simp [h]
      · have : ¬ env.maxStrDigits < 0 + groups.flatten.length := by omega
        rw [decide_eq_false this, Bool.and_false]
    · simp [hb10]
  unfold pyIntCore
  rw [dropWhile_all_append hls]
  simp only [List.mem_cons, List.not_mem_nil, or_false] at hsign
  rcases hsign with rfl | rfl | rfl
  · rw [List.nil_append, show (pre ++ ([c!"_"].intercalate groups ++ r)).dropWhile isPySpace =
      pre ++ ([c!"_"].intercalate groups ++ r) by rw [hd]; exact dropWhile_head hds]
    simp only [hnosign, hdrop, hscan, hr0, hlim, Bool.not_true, Bool.false_eq_true, if_false]
    rfl
  · rw [show (u!"+" ++ (pre ++ ([c!"_"].intercalate groups ++ r))).dropWhile isPySpace =
      43 :: (pre ++ ([c!"_"].intercalate groups ++ r)) from rfl]
    simp only [splitSign, hdrop, hscan, hr0, hlim, Bool.not_true, Bool.false_eq_true, if_false]
    rfl
  · rw [show (u!"-" ++ (pre ++ ([c!"_"].intercalate groups ++ r))).dropWhile isPySpace =
      45 :: (pre ++ ([c!"_"].intercalate groups ++ r)) from rfl]
    simp only [splitSign, hdrop, hscan, hr0, hlim, Bool.not_true, Bool.false_eq_true, if_false, if_true]
    rfl

theorem splitSign_sign (s : Str) : ∃ sign ∈ ([[], u!"+", u!"-"] : List Str), s = sign ++ (splitSign s).2 ∧
    ((splitSign s).1 = true ↔ sign = u!"-") := by
  unfold splitSign
  split
  · exact ⟨u!"+", by simp, rfl, by simp⟩
  · exact ⟨u!"-", by simp, rfl, by simp⟩
  · exact ⟨[], by simp, rfl, by simp⟩

theorem reads_of_core {env : Env} {base : Nat} (hb : base ≤ 16) {p : Str} {v : Int} (h : pyIntCore env base p = some v) :
    Reads env base p v := by
  unfold pyIntCore at h
  split at h
  · cases h
  · rename_i v' d rest hs
    split at h
    · cases h
    · rename_i hr
      split at h
      · cases h
      · rename_i hlim
        obtain ⟨sign, hsign, es, hneg⟩ := splitSign_sign (p.dropWhile isPySpace)
        obtain ⟨pre, hpre, ep⟩ := dropRadixPrefix_pre base (splitSign (p.dropWhile isPySpace)).2
        obtain ⟨g, gs, e, h1, h2, h3⟩ := scanDigits_groups hs
        have hr : rest.dropWhile isPySpace = [] := by simpa using hr
        have hrest : ∀ c ∈ rest, isPySpace c = true := dropWhile_nil_all hr
        have hg : ∀ x ∈ g :: gs, x ≠ [] ∧ IsNumeral base x := by
          intro x hx
          rcases List.mem_cons.1 hx with rfl | hx
          · exact ⟨h3 (.inr rfl), h1⟩
          · exact h2 x hx
        have hval := scanDigits_value hb hrest (groups := g :: gs) (by simp) hg false 0 0
        rw [← e, hs] at hval
        simp only [Option.some.injEq, Prod.mk.injEq, and_true] at hval
        have hflat : IsNumeral base (g :: gs).flatten := by
          intro c hc
          obtain ⟨x, hx, hc⟩ := List.mem_flatten.1 hc
          exact (hg x hx).2 c hc
        refine ⟨p.takeWhile isPySpace, sign, pre, g :: gs, rest, _, ?_, ?_, hrest, hsign, hpre, by simp,
          fun x hx => (hg x hx).1, radixValue_numeral hb hflat, ?_, ?_⟩
        · rw [← e, ← ep, ← es, List.takeWhile_append_dropWhile]
        · exact fun c hc => mem_takeWhile_true hc
        · rw [← Option.some.inj h, hval.1]
          by_cases hn : sign = u!"-"
          · rw [if_pos (hneg.2 hn), if_pos hn]; rfl
          · rw [if_neg (fun h => hn (hneg.1 h)), if_neg hn]; rfl
        · intro hb10
          rw [hval.2] at hlim
          simp only [hb10, beq_self_eq_true, Bool.true_and, Bool.and_eq_true, decide_eq_true_eq, not_and] at hlim
          by_cases h0 : env.maxStrDigits = 0
          · exact .inl h0
          · right; have := hlim (by omega); omega

/-- the characters of a numeral -/
theorem reads_chars {env : Env} {base : Nat} (hb : base ≤ 16) {p : Str} {v : Int} (h : Reads env base p v) :
    ∀ c ∈ p, c ≠ 63 ∧ c ≠ 127 := by
  obtain ⟨l, sign, pre, groups, r, m, rfl, hls, hrs, hsign, hpre, hne, hg0, hm, rfl, hl⟩ := h
  obtain ⟨hn, rfl⟩ := groups_numeral hb hm
  have hmem := groups_mem (fun g hgm => ⟨hg0 g hgm, hn g hgm⟩)
  have hsp : ∀ c, isPySpace c = true → c ≠ 63 ∧ c ≠ 127 := by
    intro c hc
    constructor <;> (rintro rfl; revert hc; decide)
  intro c hc
  simp only [List.mem_append] at hc
  rcases hc with hc | hc | hc | hc | hc
  · exact hsp c (hls c hc)
  · simp only [List.mem_cons, List.not_mem_nil, or_false] at hsign
    rcases hsign with rfl | rfl | rfl <;> revert c <;> decide
  · have : ∀ pre ∈ Spec.pyRadixPrefixes base, ∀ c ∈ pre, c ≠ 63 ∧ c ≠ 127 := by
      unfold Spec.pyRadixPrefixes
      split
      · decide
      · split <;> decide
    exact this pre hpre c hc
  · rcases hmem c hc with rfl | hc
    · decide
    · have h16 := (digitValue_lt16 (c := c)).1 (by omega)
      rw [isHex_iff] at h16
      omega
  · exact hsp c (hrs c hc)

theorem intTransform_go (env : Env) (hd : Spec.DelOK env) (t : Str) :
    (∃ p, plainText env t = some p ∧ (intTransform.go env t = p ∨ 127 ∈ p ∧ 63 ∈ intTransform.go env t)) ∨
      (plainText env t = none ∧ 63 ∈ intTransform.go env t) := by
  induction t with
  | nil => exact .inl ⟨[], rfl, .inl rfl⟩
  | cons c cs ih =>
    have step : ∀ d, plainChar env c = some d → intTransform.go env (c :: cs) = d :: intTransform.go env cs →
        (∃ p, plainText env (c :: cs) = some p ∧ (intTransform.go env (c :: cs) = p ∨ 127 ∈ p ∧ 63 ∈ intTransform.go env (c :: cs))) ∨
          (plainText env (c :: cs) = none ∧ 63 ∈ intTransform.go env (c :: cs)) := by
      intro d h1 h2
      rw [h2, plainText, h1]
      rcases ih with ⟨p, hp, h | ⟨h3, h4⟩⟩ | ⟨hp, h⟩
      · rw [hp, h]; exact .inl ⟨_, rfl, .inl rfl⟩
      · rw [hp]; exact .inl ⟨_, rfl, .inr ⟨List.mem_cons_of_mem _ h3, List.mem_cons_of_mem _ h4⟩⟩
      · rw [hp]; exact .inr ⟨rfl, List.mem_cons_of_mem _ h⟩
    by_cases h127 : c < 127
    · exact step c (by rw [plainChar, if_pos (by omega)]) (by rw [intTransform.go, if_pos h127])
    · by_cases hc : c = 127
      · subst hc
        have e : intTransform.go env (127 :: cs) = [63] := by
          rw [intTransform.go, if_neg h127, hd.1, hd.2]; rfl
        rw [e, plainText, plainChar, if_pos (by decide)]
        cases plainText env cs with
        | none => exact .inr ⟨rfl, by simp⟩
        | some p => exact .inl ⟨_, rfl, .inr ⟨by simp, by simp⟩⟩
      · have h128 : ¬ c < 128 := by omega
        by_cases hs : env.uniSpace c = true
        · exact step 32 (by rw [plainChar, if_neg h128, if_pos hs]) (by rw [intTransform.go, if_neg h127, if_pos hs])
        · cases hdec : env.uniDecimal c with
          | some d =>
            exact step (48 + d) (by rw [plainChar, if_neg h128, if_neg hs, hdec]; rfl)
              (by rw [intTransform.go, if_neg h127, if_neg hs, hdec])
          | none =>
            right
            rw [plainText, plainChar, if_neg h128, if_neg hs, hdec, intTransform.go, if_neg h127, if_neg hs, hdec]
            exact ⟨rfl, by simp⟩

theorem plainText_ascii (env : Env) {t : Str} (h : ∀ c ∈ t, c < 128) : plainText env t = some t := by
  induction t with
  | nil => rfl
  | cons c cs ih =>
    rw [plainText, ih (fun d hd => h d (by simp [hd])), plainChar, if_pos (h c (by simp))]

/-- `int(text, base)` returns exactly what the grammar says. -/
theorem pyInt_exact (env : Env) (hd : Spec.DelOK env) {base : Nat} (hb : base ≤ 16) (t : Str) (v : Int) :
    pyInt env base t = some v ↔ PyInt env base t v := by
  have spec : PyInt env base t v ↔ ∃ p, plainText env t = some p ∧ Reads env base p v := by
    constructor
    · rintro ⟨l, sign, pre, groups, r, m, h, hs⟩
      exact ⟨_, h, l, sign, pre, groups, r, m, rfl, hs⟩
    · rintro ⟨p, h, l, sign, pre, groups, r, m, rfl, hs⟩
      exact ⟨l, sign, pre, groups, r, m, h, hs⟩
  rw [spec, pyInt_core]
  have main : ∀ p, pyIntCore env base p = some v ↔ Reads env base p v := fun p => ⟨reads_of_core hb, core_of_reads hb⟩
  rw [main]
  unfold intTransform
  split
  · rename_i ha
    rw [plainText_ascii env (by simpa using ha)]
    simp
  · rcases intTransform_go env hd t with ⟨p, hp, h | ⟨h1, h2⟩⟩ | ⟨hp, h⟩
    · rw [hp, h]; simp
    · rw [hp]
      constructor
      · intro h; exact absurd rfl (reads_chars hb h 63 h2).1
      · rintro ⟨q, hq, h⟩
        cases hq
        exact absurd rfl (reads_chars hb h 127 h1).2
    · rw [hp]
      constructor
      · intro hr; exact absurd rfl (reads_chars hb hr 63 h).1
      · rintro ⟨q, hq, -⟩; cases hq

end Urlstd
