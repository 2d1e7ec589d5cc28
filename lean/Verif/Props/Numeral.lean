/-
Property C88: exactly which texts are IPv4 addresses, and of which value.
-/
import Verif.Lemmas.PyInt2
import Verif.Props.Host

namespace Urlstd.Props

open Spec (PyInt PartReads PartsRead Fits Raises Address EndsInNumber TooLong DelOK)

theorem exEnv_del : DelOK exEnv := ⟨rfl, rfl⟩

/-- an interpreter that knows the Arabic-Indic digits and the no-break space -/
def exEnvUni : Env := { exEnv with
  uniSpace := fun c => c == 0xA0
  uniDecimal := fun c => if 0x660 ≤ c ∧ c ≤ 0x669 then some (c - 0x660) else none }

theorem exEnvUni_del : DelOK exEnvUni := ⟨rfl, rfl⟩

/-- The value of one part. -/
theorem C88_number (env : Env) (hd : DelOK env) (part : Str) (v : Nat) :
    (parseIPv4Number env part).1 = (v : Int) ↔ PartReads env part v :=
  partReads_iff hd part v

-- a hexadecimal number with Python's prefix and underscores, and one in Arabic digits
example : PartReads exEnv u!"0x+0x_1F_f" 0x1FF :=
  .inr ⟨[], u!"+", u!"0x_", [u!"1F", u!"f"], [], 0x1FF, by decide, by simp, by simp, by decide, by decide, by decide, by decide,
    by decide, by decide, by decide⟩
example : (parseIPv4Number exEnvUni ([0xA0, c!"-"] ++ [0x660])).1 = 0 ∧ (parseIPv4Number exEnvUni [0x661, 0x662]).1 = 12 :=
  ⟨(C88_number exEnvUni exEnvUni_del _ 0).2 (.inr ⟨u!" ", u!"-", [], [u!"0"], [], 0, by decide +kernel, by decide, by simp, by decide,
      by decide, by decide, by decide, by decide, by decide, by decide⟩),
    (C88_number exEnvUni exEnvUni_del _ 12).2 (.inr ⟨[], [], [], [u!"12"], [], 12, by decide +kernel, by simp, by simp, by decide,
      by decide, by decide, by decide, by decide, by decide, by decide⟩)⟩

/-- Which hosts are taken for IPv4 addresses, good or bad. -/
theorem C88_ends (env : Env) (hd : DelOK env) (s : Str) : isEndsInANumber env s = true ↔ EndsInNumber env s :=
  endsInNumber_iff hd s

example : EndsInNumber exEnv u!"a.0x." ∧ ¬ EndsInNumber exEnv u!"a.0y" :=
  ⟨(C88_ends exEnv exEnv_del _).1 (by decide +kernel), fun h => absurd ((C88_ends exEnv exEnv_del _).2 h) (by decide +kernel)⟩

/-- The address of a text; and when `parse` raises which exception. -/
theorem C88_parse (env : Env) (hd : DelOK env) (s : Str) :
    (∀ n, (ipv4Parse env s).res = .ok n ↔ Address env s n) ∧
    ((ipv4Parse env s).res = .error .valueError ↔
      (Spec.ipv4Parts s).length ≤ 4 ∧ ∃ vs, PartsRead env (Spec.ipv4Parts s) vs ∧ Raises env vs) ∧
    (∀ e, (ipv4Parse env s).res = .error e → e = .valueError ∨ e = .ipv4Parse) := by
  have uniq := fun vs ws h1 h2 => partsRead_unique (env := env) hd (ps := Spec.ipv4Parts s) (vs := vs) (ws := ws) h1 h2
  rcases ipv4Parse_exact hd s with ⟨n, h1, h2⟩ | ⟨h1, h2, vs, h3, h4⟩ | ⟨h1, h2⟩
  · obtain ⟨h3, vs, h4, h5, h6, rfl⟩ := h2
    refine ⟨fun m => ?_, ?_, fun e he => by rw [h1] at he; cases he⟩
    · rw [h1, Except.ok.injEq]
      constructor
      · rintro rfl; exact ⟨h3, vs, h4, h5, h6, rfl⟩
      · rintro ⟨-, ws, h7, -, -, rfl⟩
        rw [uniq _ _ h4 h7]
    · rw [h1]
      constructor
      · intro h; cases h
      · rintro ⟨-, ws, h7, h8⟩
        rw [← uniq _ _ h4 h7] at h8
        exact absurd h8 h6
  · refine ⟨fun m => ?_, ?_, fun e he => by rw [h1] at he; cases he; exact .inl rfl⟩
    · rw [h1]
      constructor
      · intro h; cases h
      · rintro ⟨-, ws, h7, -, h8, -⟩
        rw [← uniq _ _ h3 h7] at h8
        exact absurd h4 h8
    · rw [h1]
      exact ⟨fun _ => ⟨h2, vs, h3, h4⟩, fun _ => rfl⟩
  · have key : ∀ vs, (Spec.ipv4Parts s).length ≤ 4 → PartsRead env (Spec.ipv4Parts s) vs → ¬ Fits vs ∧ ¬ Raises env vs := by
      intro vs hl hr
      rcases h2 with h2 | h2 | ⟨ws, h3, h4, h5⟩
      · omega
      · exact absurd hr (h2 vs)
      · rw [uniq _ _ hr h3]; exact ⟨h4, h5⟩
    refine ⟨fun m => ?_, ?_, fun e he => by rw [h1] at he; cases he; exact .inr rfl⟩
    · rw [h1]
      constructor
      · intro h; cases h
      · rintro ⟨hl, ws, h7, h8, -, -⟩
        exact absurd h8 (key ws hl h7).1
    · rw [h1]
      constructor
      · intro h; cases h
      · rintro ⟨hl, ws, h7, h8⟩
        exact absurd h8 (key ws hl h7).2

-- addresses that the standard does not have
example : Address exEnv u!"256.256" (2 ^ 32 + 256) ∧ Address exEnv u!"1_0.0x+1." 0x0A000001 ∧ ∀ n, ¬ Address exEnv u!"256.1" n :=
  ⟨((C88_parse exEnv exEnv_del _).1 _).1 (by decide +kernel), ((C88_parse exEnv exEnv_del _).1 _).1 (by decide +kernel),
    fun n h => by have := ((C88_parse exEnv exEnv_del _).1 n).2 h; revert this; rw [show (ipv4Parse exEnv u!"256.1").res = .error .ipv4Parse by decide +kernel]; simp⟩

/-- The IPv4 hosts of special URLs. -/
theorem C88_host (env : Env) (hd : DelOK env) (t : Str) (ht : Spec.IsStr t) (n : Nat) :
    (hostParse env t false).res = .ok (.ipv4 n) ↔ t.head? ≠ some c!"[" ∧ t ≠ [] ∧
      ∃ a, (domainToAscii env (Spec.utf8Decode (Spec.percentDecode (Spec.utf8 t))) false).res = .ok a ∧
        (∀ c ∈ a, ¬ Spec.ForbiddenDomainCP c) ∧ EndsInNumber env a ∧ Address env a n := by
  rw [← utf8Encode_eq t ht, ← percentDecode_eq, ← utf8Decode_eq]
  change _ ↔ _ ∧ _ ∧ ∃ a, (domainToAscii env (utf8Decode (stringPercentDecode t)) false).res = .ok a ∧ _
  simp only [← isForbiddenDomain_iff, Bool.not_eq_true]
  cases t with
  | nil => simp [hostParse, Res.ok]
  | cons c cs =>
    simp only [List.head?_cons, ne_eq, Option.some.injEq, reduceCtorEq, not_false_eq_true, true_and]
    by_cases hc : c = 91
    · subst hc
      simp only [not_true_eq_false, false_and, iff_false]
      intro h
      unfold hostParse at h
      dsimp only at h
      rw [if_pos rfl] at h
      split at h
      · cases h
      · split at h <;> cases h
    · simp only [hc, not_false_eq_true, true_and]
      unfold hostParse
      dsimp only
      rw [if_neg hc, if_neg (by decide)]
      rcases hdom : domainToAscii env (utf8Decode (stringPercentDecode (c :: cs))) false with ⟨res, log⟩
      cases res with
      | error e => simp [Res.err]
      | ok a =>
        simp only [Except.ok.injEq, exists_eq_left']
        by_cases hf : a.any isForbiddenDomain = true
        · rw [if_pos hf]
          constructor
          · intro h; cases h
          · rintro ⟨h, -⟩
            obtain ⟨x, hx, hx2⟩ := List.any_eq_true.1 hf
            rw [h x hx] at hx2; cases hx2
        · rw [if_neg hf]
          have hf' : ∀ x ∈ a, isForbiddenDomain x = false := by simpa using hf
          by_cases hn : isEndsInANumber env a = true
          · rw [if_pos hn]
            rcases hp : ipv4Parse env a with ⟨res, log'⟩
            have h1 := (C88_parse env hd a).1 n
            rw [hp] at h1
            cases res with
            | error e =>
              constructor
              · intro h; cases h
              · rintro ⟨-, -, h⟩; cases h1.2 h
            | ok m =>
              simp only [Res.ok, Except.ok.injEq, Host.ipv4.injEq] at h1 ⊢
              rw [h1]
              exact ⟨fun h => ⟨hf', (C88_ends env hd a).1 hn, h⟩, fun h => h.2.2⟩
          · rw [if_neg hn]
            constructor
            · intro h; cases h
            · rintro ⟨-, h, -⟩; exact absurd ((C88_ends env hd a).2 h) hn

example : (hostParse exEnv u!"%31.0X7f" false).res = .ok (.ipv4 0x0100007F) ∧ Address exEnv u!"1.0x7f" 0x0100007F := by
  have h : (hostParse exEnv u!"%31.0X7f" false).res = .ok (.ipv4 0x0100007F) := by decide +kernel
  obtain ⟨-, -, a, h1, -, -, h2⟩ := (C88_host exEnv exEnv_del _ (by decide) _).1 h
  rw [show (domainToAscii exEnv (Spec.utf8Decode (Spec.percentDecode (Spec.utf8 u!"%31.0X7f"))) false).res = .ok u!"1.0x7f" by decide +kernel] at h1
  cases h1
  exact ⟨h, h2⟩

/-- C62, exactly: the valid texts consist of four decimal numbers up to 255, as `int()` reads them. -/
theorem C62_exact (env : Env) (hd : DelOK env) (s : Str) :
    (isValidIPv4Address env s).res = .ok true ↔
      ∃ a b c d, Spec.strictlySplit c!"." [] s = [a, b, c, d] ∧
        ∀ p ∈ [a, b, c, d], (Spec.partRadix p).1 = 10 ∧ ∃ v : Nat, PyInt env 10 p v ∧ v ≤ 255 := by
  rw [isValidIPv4_iff, strictlySplit_splitOn]
  simp only [byteText_iff hd, exists_and_left]

-- an Arabic digit, underscores and signs
example : ∃ a b c d, Spec.strictlySplit c!"." [] ([0x661] ++ u!"_0.+0.-0.255") = [a, b, c, d] ∧
    ∀ p ∈ [a, b, c, d], (Spec.partRadix p).1 = 10 ∧ ∃ v : Nat, PyInt exEnvUni 10 p v ∧ v ≤ 255 :=
  (C62_exact _ exEnvUni_del _).1 (by decide +kernel)

end Urlstd.Props
