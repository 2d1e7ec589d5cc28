/-
The exceptions of `Host.parse`: URLParseError and its subclasses, or a bare ValueError when a number
is longer than CPython's digit limit.
-/
import Verif.Lemmas.Host
import Verif.Spec.Url
import Verif.Lemmas.SuffixEq

set_option linter.unusedSimpArgs false
set_option linter.unusedVariables false

namespace Urlstd

open Spec (IsStr)

/-- URLParseError or a subclass, or the bare ValueError of the integer digit limit -/
def ParseErr (env : Env) (n : Nat) (e : Err) : Prop :=
  e.isURLParseError = true ∨ (e = .valueError ∧ LongInput env n)

theorem LongInput.mono {env : Env} {m n : Nat} (h : LongInput env m) (hmn : m ≤ n) : LongInput env n := by
  obtain ⟨h0, h | ⟨d, a, log, hd, ha, hl⟩⟩ := h
  · exact ⟨h0, .inl (by omega)⟩
  · exact ⟨h0, .inr ⟨d, a, log, by omega, ha, hl⟩⟩

theorem ParseErr.mono {env : Env} {m n : Nat} {e : Err} (h : ParseErr env m e) (hmn : m ≤ n) : ParseErr env n e :=
  h.imp id fun h => ⟨h.1, h.2.mono hmn⟩

theorem pyInt_digits_none {env : Env} {s : Str} (h : ∀ c ∈ s, isDigit c = true) (hne : s ≠ [])
    (hn : pyInt env 10 s = none) : env.maxStrDigits ≠ 0 ∧ env.maxStrDigits < s.length := by
  have hnum : IsNumeral 10 s := fun c hc => digitValue_lt10.2 (h c hc)
  by_cases hl : env.maxStrDigits = 0 ∨ s.length ≤ env.maxStrDigits
  · rw [pyInt_numeral env (by omega) hnum hne (fun _ => hl)] at hn; simp at hn
  · omega

theorem domainToAscii_err {env : Env} {d : Str} {b : Bool} {e : Err} {log : Log}
    (h : domainToAscii env d b = ⟨.error e, log⟩) : e.isURLParseError = true := by
  unfold domainToAscii at h
  split at h
  · simp only [Res.err, Res.mk.injEq, Except.error.injEq] at h; rw [← h.1]; rfl
  · dsimp only at h
    generalize maskErrors _ _ = m at h
    split at h
    · simp only [Res.err, Res.mk.injEq, Except.error.injEq] at h; rw [← h.1]; rfl
    · split at h
      · simp only [Res.err, Res.mk.injEq, Except.error.injEq] at h; rw [← h.1]; rfl
      · simp [Res.ok] at h

/-! ### The size of numbers -/

theorem scanDigits_bound {base : Nat} (hb : 1 ≤ base) (s : Str) : ∀ (us : Bool) (acc digits v d : Nat) (rest : Str),
    scanDigits base s us acc digits = some (v, d, rest) → acc < base ^ digits →
    v < base ^ d ∧ d ≤ digits + s.length := by
  induction s with
  | nil =>
    intro us acc digits v d rest h ha
    unfold scanDigits at h
    split at h
    · simp at h
    · simp only [Option.some.injEq, Prod.mk.injEq] at h
      obtain ⟨rfl, rfl, _⟩ := h
      exact ⟨ha, by omega⟩
  | cons c cs ih =>
    intro us acc digits v d rest h ha
    unfold scanDigits at h
    split at h
    · split at h
      · simp at h
      · have := ih _ _ _ _ _ _ h ha
        exact ⟨this.1, by rw [List.length_cons]; omega⟩
    · split at h
      · rename_i hc
        have := ih _ _ _ _ _ _ h (by
          rw [Nat.pow_succ]
          have : acc * base + base ≤ base ^ digits * base := by
            rw [← Nat.succ_mul]; exact Nat.mul_le_mul_right _ ha
          omega)
        exact ⟨this.1, by rw [List.length_cons]; omega⟩
      · split at h
        · simp at h
        · simp only [Option.some.injEq, Prod.mk.injEq] at h
          obtain ⟨rfl, rfl, _⟩ := h
          exact ⟨ha, by omega⟩

theorem intTransform_go_length (env : Env) (s : Str) : (intTransform.go env s).length ≤ s.length := by
  induction s with
  | nil => simp [intTransform.go]
  | cons c cs ih =>
    unfold intTransform.go
    split
    · simpa using ih
    · split
      · simpa using ih
      · split
        · simpa using ih
        · simp

theorem intTransform_length (env : Env) (s : Str) : (intTransform env s).length ≤ s.length := by
  unfold intTransform
  split
  · exact Nat.le_refl _
  · exact intTransform_go_length env s

theorem splitSign_length (s : Str) : (splitSign s).2.length ≤ s.length := by
  unfold splitSign; split <;> simp

theorem dropRadixPrefix_length (base : Nat) (s : Str) : (dropRadixPrefix base s).length ≤ s.length := by
  unfold dropRadixPrefix
  split
  · split
    · split <;> (simp; try omega)
    · simp
  · simp

theorem dropWhile_length (p : Nat → Bool) (s : Str) : (s.dropWhile p).length ≤ s.length :=
  (List.dropWhile_suffix p).length_le

/-- `int(text, base)` is smaller than `base ** len(text)` -/
theorem pyInt_bound {env : Env} {base : Nat} (hb : 1 ≤ base) {s : Str} {v : Int} (h : pyInt env base s = some v) :
    v.toNat < base ^ s.length := by
  unfold pyInt at h
  dsimp only at h
  have hl1 := splitSign_length ((intTransform env s).dropWhile isPySpace)
  have hl2 := dropRadixPrefix_length base (splitSign ((intTransform env s).dropWhile isPySpace)).2
  have hl3 := intTransform_length env s
  have hl4 := dropWhile_length isPySpace (intTransform env s)
  split at h
  · simp at h
  · rename_i v' digits rest hs
    have := scanDigits_bound hb _ _ _ _ _ _ _ hs (by simp)
    have hp : base ^ digits ≤ base ^ s.length := Nat.pow_le_pow_right hb (by omega)
    have h1 : 1 ≤ base ^ s.length := Nat.one_le_pow _ _ hb
    split at h
    · simp at h
    · split at h
      · simp at h
      · simp only [Option.some.injEq] at h
        rw [← h]
        split
        · have : (-Int.ofNat v').toNat = 0 := by
            have : (0 : Int) ≤ Int.ofNat v' := Int.natCast_nonneg _
            omega
          omega
        · simp only [Int.ofNat_eq_natCast, Int.toNat_natCast]
          omega

theorem pow16 {base n m : Nat} (hb : base ≤ 16) (hn : n ≤ m) : base ^ n ≤ 10 ^ (2 * m) := by
  have h1 : base ^ n ≤ 16 ^ n := Nat.pow_le_pow_left hb n
  have h2 : 16 ^ n ≤ 100 ^ n := Nat.pow_le_pow_left (by omega) n
  have h3 : (100 : Nat) ^ n = 10 ^ (2 * n) := by rw [Nat.pow_mul]
  have h4 : (10 : Nat) ^ (2 * n) ≤ 10 ^ (2 * m) := Nat.pow_le_pow_right (by omega) (by omega)
  omega

theorem parseIPv4Number_bound (env : Env) (s : Str) (hs : s ≠ []) :
    (parseIPv4Number env s).1.toNat < 10 ^ (2 * s.length) := by
  have h1 : ∀ n, 1 ≤ 10 ^ (2 * n) := fun n => Nat.one_le_pow _ _ (by omega)
  have hm1 : (-1 : Int).toNat = 0 := rfl
  have hz : (0 : Int).toNat = 0 := rfl
  unfold parseIPv4Number
  split
  · exact absurd rfl hs
  · rename_i c
    split
    · rename_i v hv
      exact Nat.lt_of_lt_of_le (pyInt_bound (by omega) hv) (pow16 (by omega) (by simp))
    · rw [hm1]; exact h1 _
  · rename_i c0 c1 rest
    split
    · split
      · rw [hz]; exact h1 _
      · split
        · rename_i v hv
          exact Nat.lt_of_lt_of_le (pyInt_bound (by omega) hv) (pow16 (by omega) (by simp; omega))
        · rw [hm1]; exact h1 _
    · split
      · split
        · rename_i v hv
          exact Nat.lt_of_lt_of_le (pyInt_bound (by omega) hv) (pow16 (by omega) (by simp))
        · rw [hm1]; exact h1 _
      · split
        · rename_i v hv
          exact Nat.lt_of_lt_of_le (pyInt_bound (by omega) hv) (pow16 (by omega) (by simp))
        · rw [hm1]; exact h1 _

theorem splitOn_length {sep : Nat} {s p : Str} (h : p ∈ splitOn sep s) : p.length ≤ s.length := by
  induction s generalizing p with
  | nil => simp [splitOn] at h; simp [h]
  | cons c cs ih =>
    by_cases hc : c = sep
    · subst hc
      rw [splitOn_sep] at h
      rcases List.mem_cons.1 h with rfl | h
      · simp
      · have := ih h; simp; omega
    · obtain ⟨h', t, e⟩ := splitOn_cons sep cs
      rw [splitOn_other hc e] at h
      rcases List.mem_cons.1 h with rfl | h
      · have := ih (p := h') (by simp [e]); simp; omega
      · have := ih (p := p) (by simp [e, h]); simp; omega

theorem strTooLong_part {env : Env} {s : Str} (h : strTooLong env (parseIPv4Number env s).1.toNat = true) :
    env.maxStrDigits ≠ 0 ∧ env.maxStrDigits < 2 * s.length := by
  simp only [strTooLong, Bool.and_eq_true, decide_eq_true_eq] at h
  cases s with
  | nil =>
    have : (natDec (parseIPv4Number env []).1.toNat).length = 1 := rfl
    omega
  | cons c cs =>
    have := natDec_length (parseIPv4Number_bound env (c :: cs) (by simp)) (by simp; omega)
    omega

theorem ipv4Parse_valueError {env : Env} {s : Str} {log : Log} (h : ipv4Parse env s = ⟨.error .valueError, log⟩) :
    env.maxStrDigits ≠ 0 ∧ env.maxStrDigits < 2 * s.length := by
  rw [ipv4Parse_eq] at h
  dsimp only at h
  split at h
  · simp [Res.err] at h
  · split at h
    · rename_i heq
      simp only [Res.err, Res.mk.injEq, Except.error.injEq] at h
      have := ipv4Numbers_error env _ _ _ _ _ heq
      rw [h.1] at this; cases this
    · rename_i numbers log' heq
      have hn := (ipv4Numbers_ok env _ _ _ _ _ heq).1
      have key : numbers.any (strTooLong env) = true → env.maxStrDigits ≠ 0 ∧ env.maxStrDigits < 2 * s.length := by
        intro ht
        rw [hn] at ht
        simp only [List.nil_append, List.any_map, List.any_eq_true, Function.comp] at ht
        obtain ⟨p, hp, ht⟩ := ht
        have h1 := splitOn_length (mem_partsOf hp)
        have h2 := strTooLong_part ht
        omega
      split at h
      · rename_i ht
        simp only [Bool.and_eq_true] at ht
        exact key ht.2
      · split at h
        · split at h
          · rename_i ht; exact key ht
          · simp [Res.err] at h
        · split at h
          · split at h
            · rename_i ht; exact key ht
            · simp [Res.err] at h
          · simp [Res.ok] at h

/-! ### Length of decoded hosts -/

theorem combine_length (s : Str) : (Spec.combineSurrogates s).length ≤ s.length := by
  fun_induction Spec.combineSurrogates s <;> simp_all <;> omega

theorem utf8EncodeCP_length (c : Nat) : (utf8EncodeCP c).length ≤ 4 := by
  unfold utf8EncodeCP; split <;> (try split) <;> (try split) <;> simp

theorem flatMap_length_le {f : Nat → Bytes} {k : Nat} (hf : ∀ c, (f c).length ≤ k) (s : Str) :
    (s.flatMap f).length ≤ k * s.length := by
  induction s with
  | nil => simp
  | cons c cs ih => simp only [List.flatMap_cons, List.length_append, List.length_cons, Nat.mul_succ]; have := hf c; omega

theorem utf8Encode_length {s : Str} (hs : IsStr s) : (utf8Encode s).length ≤ 4 * s.length := by
  rw [utf8Encode, toScalar_eq_combine s hs]
  have h1 := flatMap_length_le utf8EncodeCP_length (Spec.combineSurrogates s)
  have h2 := combine_length s
  unfold utf8EncodeStrict
  omega

theorem specPD_length (bs : Bytes) : (Spec.percentDecode bs).length ≤ bs.length := by
  fun_induction Spec.percentDecode bs <;> simp_all <;> omega

theorem utf8Decode_length (bs : Bytes) : (utf8Decode bs).length ≤ bs.length := by
  fun_induction utf8Decode bs <;> simp_all <;> omega

theorem decoded_length {s : Str} (hs : IsStr s) : (utf8Decode (stringPercentDecode s)).length ≤ 4 * s.length := by
  have h1 := utf8Decode_length (stringPercentDecode s)
  have h2 : (stringPercentDecode s).length ≤ (utf8Encode s).length := by
    unfold stringPercentDecode; rw [percentDecode_eq]; exact specPD_length _
  have h3 := utf8Encode_length hs
  omega

/-- the exceptions of `Host.parse` -/
theorem hostParse_err {env : Env} {host : Str} (hs : IsStr host) {m : Bool} {e : Err}
    (h : (hostParse env host m).res = .error e) : ParseErr env host.length e := by
  unfold hostParse at h
  split at h
  · simp [Res.ok] at h
  · rename_i h0 htail
    split at h
    · split at h
      · simp only [Res.err, Except.error.injEq] at h; subst h; exact .inl rfl
      · have hp := ipv6Parse_post env htail.dropLast
        split at h
        · simp [Res.ok] at h
        · rename_i e' log heq
          rw [heq] at hp
          simp only [Res.err, Except.error.injEq] at h
          subst h
          rcases hp with rfl | ⟨rfl, h1, h2⟩
          · exact .inl rfl
          · refine .inr ⟨rfl, h1, .inl ?_⟩
            rw [List.length_dropLast] at h2
            rw [List.length_cons]; omega
    · split at h
      · split at h
        · simp [Res.ok] at h
        · rename_i heq
          simp only [Res.err, Except.error.injEq] at h
          subst h
          unfold parseOpaqueHost at heq
          split at heq
          · simp only [Res.err, Res.mk.injEq, Except.error.injEq] at heq; rw [← heq.1]; exact .inl rfl
          · simp [Res.ok] at heq
      · split at h
        · rename_i heq
          simp only [Res.err, Except.error.injEq] at h
          subst h
          exact .inl (domainToAscii_err heq)
        · rename_i ascii log hd
          split at h
          · simp only [Res.err, Except.error.injEq] at h; subst h; exact .inl rfl
          · split at h
            · split at h
              · simp [Res.ok] at h
              · rename_i e' log' heq
                simp only [Res.err, Except.error.injEq] at h
                subst h
                rcases ipv4Parse_error heq with rfl | rfl
                · exact .inl rfl
                · have := ipv4Parse_valueError heq
                  exact .inr ⟨rfl, this.1, .inr ⟨_, _, _, decoded_length hs, hd, this.2⟩⟩
            · simp [Res.ok] at h

/-- a host parsed from a non-empty text is not empty -/
theorem hostParse_ne {env : Env} {host : Str} (hs : IsStr host) (hne : host ≠ []) {m : Bool} {h : Host}
    (hp : (hostParse env host m).res = .ok h) : h ≠ .str [] := by
  have hp' : hostParse env host m = ⟨.ok h, (hostParse env host m).log⟩ := by
    rw [← hp]
  rcases hostParse_cases hp' with ⟨h0, _⟩ | ⟨t, a, _, _, _, h6, rfl⟩ | ⟨s, _, _, rfl, ho, rfl⟩ |
    ⟨ascii, l, _, _, rfl, hd, _, ⟨_, n, l', h4, rfl⟩ | ⟨_, rfl⟩⟩
  · exact absurd h0 hne
  · simp
  · have := (parseOpaqueHost_ok hs hne ho).2.2.1
    simpa using this
  · simp
  · have := domainToAscii_ne_nil hd
    simpa using this

end Urlstd
