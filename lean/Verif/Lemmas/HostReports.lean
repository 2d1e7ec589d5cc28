/-
The validation errors of the code's host parser and those of the standard's.
-/
import Verif.Spec.HostReports
import Verif.Lemmas.Reports4
import Verif.Lemmas.ValidHost

set_option linter.unusedSimpArgs false
set_option linter.unusedVariables false

namespace Urlstd

open Spec (IsStr IsScalarStr)

/-! ### IPv4 -/

/-- the number of a part that is not longer than the digit limit -/
theorem parseIPv4Number_exact (env : Env) (he : EnvOK env) {p : Str} (h : Spec.StrictPart p)
    (hl : env.maxStrDigits = 0 ∨ p.length ≤ env.maxStrDigits) :
    (parseIPv4Number env p).1 = match Spec.ipv4Number p with | some v => Int.ofNat v | none => -1 := by
  unfold parseIPv4Number
  split
  · rfl
  · -- one character
    rename_i c
    have e : Spec.ipv4Number [c] = Spec.radixValue 10 0 [c] := by
      unfold Spec.ipv4Number; split <;> simp_all
    rw [e]
    by_cases hn : IsNumeral 10 [c]
    · rw [pyInt_numeral env (by omega) hn (by simp) (fun _ => hl), radixValue_numeral (by omega) hn]
    · rw [pyInt_strict_none env (by omega) (StrictPart_one h) (.inr hn), radixValue_none (by omega) hn]
  · rename_i c0 c1 rest
    split
    · -- hexadecimal
      rename_i hx
      simp only [Bool.and_eq_true, Bool.or_eq_true, beq_iff_eq] at hx
      obtain ⟨rfl, hx⟩ := hx
      have e : Spec.ipv4Number (48 :: c1 :: rest) = Spec.radixValue 16 0 rest := by
        simp [Spec.ipv4Number, hx]
      rw [e]
      split
      · rename_i hre
        rw [List.isEmpty_iff] at hre
        subst hre
        rfl
      · rename_i hre
        rw [List.isEmpty_iff] at hre
        rw [pyInt_strict env (by omega) (by omega) (StrictPart_hex hx h) hre]
        cases Spec.radixValue 16 0 rest with
        | none => rfl
        | some v => rfl
    · rename_i hx
      simp only [Bool.and_eq_true, Bool.or_eq_true, beq_iff_eq] at hx
      split
      · -- octal
        rename_i h0
        simp only [beq_iff_eq] at h0
        subst h0
        have hx : ¬ (c1 = 120 ∨ c1 = 88) := fun h => hx ⟨rfl, h⟩
        have e : Spec.ipv4Number (48 :: c1 :: rest) = Spec.radixValue 8 0 (c1 :: rest) := by
          simp [Spec.ipv4Number, hx]
        rw [e, pyInt_strict env (by omega) (by omega) (StrictPart_oct hx h) (by simp)]
        cases Spec.radixValue 8 0 (c1 :: rest) with
        | none => rfl
        | some v => rfl
      · -- decimal
        rename_i h0
        simp only [beq_iff_eq] at h0
        have e : Spec.ipv4Number (c0 :: c1 :: rest) = Spec.radixValue 10 0 (c0 :: c1 :: rest) := by
          unfold Spec.ipv4Number
          split
          · simp_all
          · rename_i heq; injection heq with h1 h2; exact absurd h1 h0
          · rfl
        rw [e]
        by_cases hn : IsNumeral 10 (c0 :: c1 :: rest)
        · rw [radixValue_numeral (by omega) hn, pyInt_numeral env (by omega) hn (by simp) (fun _ => hl)]
        · rw [pyInt_strict_none env (by omega) (StrictPart_dec h0 h) (.inr hn), radixValue_none (by omega) hn]

/-- the flag of a part that is a number -/
theorem parseIPv4Number_flag (env : Env) {p : Str} (h : 0 ≤ (parseIPv4Number env p).1) :
    (parseIPv4Number env p).2 = Spec.nonDecimal p := by
  unfold parseIPv4Number at h ⊢
  split at h
  · simp at h
  · rename_i c
    have : Spec.nonDecimal [c] = false := by unfold Spec.nonDecimal; split <;> simp_all
    rw [this]
    cases hp : pyInt env 10 [c] with
    | none => rw [hp] at h; simp at h
    | some v => simp only [hp]
  · rename_i c0 c1 rest
    by_cases h0 : c0 = 48
    · subst h0
      have : Spec.nonDecimal (48 :: c1 :: rest) = true := rfl
      rw [this]
      simp only [beq_self_eq_true, Bool.true_and, if_true]
      split
      · split
        · rfl
        · split <;> rfl
      · split <;> rfl
    · have : Spec.nonDecimal (c0 :: c1 :: rest) = false := by
        unfold Spec.nonDecimal
        split
        · rename_i heq; injection heq with h1 _; exact absurd h1 h0
        · rfl
      have hc : (c0 == 48) = false := by simpa using h0
      rw [this]
      simp only [hc, Bool.false_and, Bool.false_eq_true, if_false] at h ⊢
      cases hp : pyInt env 10 (c0 :: c1 :: rest) with
      | none => rw [hp] at h; simp at h
      | some v => rfl

theorem ipv4Numbers_reports (env : Env) (he : EnvOK env) (parts : List Str)
    (hp : ∀ p ∈ parts, Spec.StrictPart p ∧ (env.maxStrDigits = 0 ∨ p.length ≤ env.maxStrDigits)) :
    ∀ (acc : List Nat) (log : Log),
    (∃ ns log' l, ipv4Numbers env parts acc log = .ok (acc ++ ns) log' ∧ types log' = types log ++ l ∧
      Spec.ipv4PartReports acc parts = l ++ if ∃ n ∈ acc ++ ns, n > 255 then [.ipv4OutOfRangePart] else []) ∨
    (∃ log', ipv4Numbers env parts acc log = .err .ipv4Parse log' ∧
      types log' = types log ++ Spec.ipv4PartReports acc parts ∧
      (Spec.ipv4PartReports acc parts).getLast? = some .ipv4NonNumericPart) := by
  induction parts with
  | nil =>
    intro acc log
    left
    refine ⟨[], log, [], by simp [ipv4Numbers], by simp, ?_⟩
    simp [Spec.ipv4PartReports]
  | cons p ps ih =>
    intro acc log
    obtain ⟨h1, h2⟩ := hp p (by simp)
    have ih := ih (fun q hq => hp q (by simp [hq]))
    have hag := parseIPv4Number_exact env he h1 h2
    unfold ipv4Numbers Spec.ipv4PartReports
    dsimp only
    cases ho : Spec.ipv4Number p with
    | none =>
      rw [ho] at hag
      dsimp only at hag ⊢
      rw [hag, if_pos (by decide)]
      right
      exact ⟨_, rfl, by rw [types_cons]; rfl, by simp⟩
    | some v =>
      rw [ho] at hag
      dsimp only at hag ⊢
      have hf := parseIPv4Number_flag env (p := p) (by rw [hag]; simp)
      rw [hag, if_neg (by simp), hf]
      have e : (if Spec.nonDecimal p = true then ([.ipv4NonDecimalPart] : List VErr) else []) =
          types (if Spec.nonDecimal p = true then [.ev .ipv4NonDecimalPart] else []) := by split <;> rfl
      have e' : types (if Spec.nonDecimal p = true then .ev .ipv4NonDecimalPart :: log else log) =
          types log ++ types (if Spec.nonDecimal p = true then [.ev .ipv4NonDecimalPart] else []) := by
        split
        · rw [types_cons]; rfl
        · simp [types_nil]
      rw [e]
      have hv : (Int.ofNat v).toNat = v := rfl
      rw [hv]
      rcases ih (acc ++ [v]) (if Spec.nonDecimal p = true then .ev .ipv4NonDecimalPart :: log else log) with
        ⟨ns, log', l, g1, g2, g3⟩ | ⟨log', g1, g2, g3⟩
      · left
        refine ⟨v :: ns, log', types (if Spec.nonDecimal p = true then [.ev .ipv4NonDecimalPart] else []) ++ l,
          by rw [g1, List.append_assoc]; rfl, by rw [g2, e', List.append_assoc], ?_⟩
        rw [g3, List.append_assoc, List.append_assoc]
        rfl
      · right
        exact ⟨log', g1, by rw [g2, e', List.append_assoc], by rw [List.getLast?_append, g3]; rfl⟩

/-- what the code records for an IPv4 address: the standard's errors, and one more when it is out of range -/
theorem ipv4_reports (env : Env) (he : EnvOK env) {s : Str} (hp : ∀ p ∈ Spec.ipv4Parts s, Spec.StrictPart p)
    (hl : env.maxStrDigits = 0 ∨ 2 * s.length ≤ env.maxStrDigits) :
    (types (ipv4Parse env s).log = Spec.ipv4Reports s ∧
      ((∃ e, (ipv4Parse env s).res = .error e) → (Spec.ipv4Reports s).getLast? ≠ some .ipv4OutOfRangePart)) ∨
    ((∃ e, (ipv4Parse env s).res = .error e) ∧ ∃ l, Spec.ipv4Reports s = l ++ [.ipv4OutOfRangePart] ∧
      types (ipv4Parse env s).log = l ++ [.ipv4OutOfRangePart, .undefined]) := by
  have hparts : ∀ p ∈ partsOf s, Spec.StrictPart p ∧ (env.maxStrDigits = 0 ∨ p.length ≤ env.maxStrDigits) := by
    intro p h
    refine ⟨hp p (by rw [← partsOf_eq]; exact h), hl.imp id fun hl => ?_⟩
    have := splitOn_length (mem_partsOf h)
    omega
  have hshort : ∀ p ∈ partsOf s, ¬ strTooLong env (parseIPv4Number env p).1.toNat = true := by
    intro p h ht
    have h1 := strTooLong_part ht
    have := splitOn_length (mem_partsOf h)
    omega
  rw [ipv4Parse_eq]
  unfold Spec.ipv4Reports
  rw [← partsOf_eq, strictlySplit_splitOn]
  dsimp only
  have hne0 : splitOn 46 s ≠ [] := by
    intro h
    have := partsOf_ne_nil s
    unfold partsOf at this
    rw [h] at this
    exact this (by simp)
  have hempty : ((splitOn 46 s).getLastD []).isEmpty = true ↔ (splitOn 46 s).getLast? = some [] := by
    rw [getLastD_eq _ _ hne0, List.getLast?_eq_some_getLast hne0, List.isEmpty_iff]
    simp
  have e0 : (if (splitOn c!"." s).getLast? = some [] then ([.ipv4EmptyPart] : List VErr) else []) =
      types (if ((splitOn 46 s).getLastD []).isEmpty = true then [.ev .ipv4EmptyPart] else []) := by
    by_cases h : ((splitOn 46 s).getLastD []).isEmpty = true
    · rw [if_pos h, if_pos (hempty.1 h)]; rfl
    · rw [if_neg h, if_neg (fun g => h (hempty.2 g))]; rfl
  rw [e0]
  generalize (if ((splitOn 46 s).getLastD []).isEmpty = true then [LogEv.ev .ipv4EmptyPart] else []) = log
  by_cases hlen : (partsOf s).length > 4
  · rw [if_pos hlen, if_pos hlen]
    left
    exact ⟨by rw [Res.err, types_cons]; rfl, by simp⟩
  · rw [if_neg hlen, if_neg hlen]
    rcases ipv4Numbers_reports env he (partsOf s) hparts [] log with ⟨ns, log', l, g1, g2, g3⟩ | ⟨log', g1, g2, g3⟩
    · have hok := ipv4Numbers_ok env _ _ _ _ _ g1
      rw [g1]
      rw [List.nil_append] at g3 hok
      simp only [Res.ok, List.nil_append]
      have htl : ns.any (strTooLong env) = false := by
        rw [List.any_eq_false, hok.1]
        intro v hv
        simp only [List.nil_append, List.mem_map] at hv
        obtain ⟨p, h, rfl⟩ := hv
        exact hshort p h
      rw [htl]
      simp only [Bool.and_false, Bool.false_eq_true, if_false]
      rw [g3]
      have hout : ns.any (· > 255) = true ↔ ∃ n ∈ ns, n > 255 := by simp
      have key : ∀ {α : Type} (r : Except Err α), (∃ n ∈ ns, n > 255) →
          ((∃ e, (Except.error Err.ipv4Parse : Except Err α) = Except.error e) ∧ ∃ l', types log ++ (l ++ if ∃ n ∈ ns, n > 255 then [.ipv4OutOfRangePart] else []) =
            l' ++ [.ipv4OutOfRangePart] ∧
          types (.ev .undefined :: if ns.any (· > 255) = true then .ev .ipv4OutOfRangePart :: log' else log') =
            l' ++ [.ipv4OutOfRangePart, .undefined]) := by
        intro α r hbig
        refine ⟨⟨_, rfl⟩, types log ++ l, ?_, ?_⟩
        · rw [if_pos hbig, List.append_assoc]
        · rw [if_pos (hout.2 hbig), types_cons, types_cons, g2]
          simp [LogEv.type]
      by_cases h1 : (ns.dropLast.any (· > 255) && decide (ns.getLastD 0 ≤ 255)) = true
      · rw [if_pos h1]
        right
        refine key (.ok 0) ?_
        simp only [Bool.and_eq_true, List.any_eq_true] at h1
        obtain ⟨⟨n, hn, hb⟩, _⟩ := h1
        exact ⟨n, List.dropLast_subset _ hn, by simpa using hb⟩
      · rw [if_neg h1]
        by_cases h2 : ns.getLastD 0 ≥ 256 ^ (5 - ns.length)
        · rw [if_pos h2]
          right
          refine key (.ok 0) ?_
          have hl' : ns.length = (partsOf s).length := by rw [hok.1]; simp
          have hns : ns ≠ [] := by
            intro e; rw [e] at hl'; simp at hl'; exact partsOf_ne_nil s (List.length_eq_zero_iff.1 hl'.symm)
          rw [getLastD_eq _ _ hns] at h2
          refine ⟨_, List.getLast_mem hns, ?_⟩
          have : 256 ^ 1 ≤ 256 ^ (5 - ns.length) := Nat.pow_le_pow_right (by omega) (by omega)
          omega
        · rw [if_neg h2]
          left
          refine ⟨?_, by rintro ⟨e, h⟩; cases h⟩
          by_cases h3 : ∃ n ∈ ns, n > 255
          · rw [if_pos (hout.2 h3), if_pos h3, types_cons, g2, List.append_assoc]; rfl
          · rw [if_neg (fun h => h3 (hout.1 h)), if_neg h3, g2, List.append_nil]
    · rw [g1]
      left
      exact ⟨g2, fun _ => by rw [List.getLast?_append, g3]; simp⟩

/-! ### Opaque hosts -/

theorem splitOn_head (sep : Nat) (s : Str) : ∃ t, splitOn sep s = s.takeWhile (· != sep) :: t := by
  induction s with
  | nil => exact ⟨[], rfl⟩
  | cons c cs ih =>
    obtain ⟨t, ih⟩ := ih
    by_cases hc : c = sep
    · subst hc
      exact ⟨splitOn c cs, by rw [splitOn_sep]; simp⟩
    · exact ⟨t, by rw [splitOn_other hc ih, List.takeWhile_cons_of_pos (by simpa using hc)]⟩

theorem badEscape_eq (s : Str) : Spec.badEscape s =
    ((splitOn c!"%" s).drop 1).any (fun p => decide (p.length < 2) || (p.take 2).any (!isHex ·)) := by
  induction s with
  | nil => rfl
  | cons c cs ih =>
    unfold Spec.badEscape
    by_cases hc : c = c!"%"
    · subst hc
      rw [splitOn_sep, List.drop_one, List.tail_cons, ih]
      have hpiece : ∃ t, splitOn c!"%" cs = cs.takeWhile (· != c!"%") :: t := splitOn_head _ _
      obtain ⟨t, ht⟩ := hpiece
      rw [ht, List.any_cons, List.drop_one, List.tail_cons]
      congr 1
      match cs with
      | [] => rfl
      | [x] =>
        by_cases hx : x = c!"%"
        · subst hx; rfl
        · simp [Spec.startsWithTwoHex, hx, List.takeWhile_cons]
      | x :: y :: r =>
        by_cases hx : x = c!"%"
        · subst hx
          simp [Spec.startsWithTwoHex, List.takeWhile_cons]
          exact .inl (by decide)
        · by_cases hy : y = c!"%"
          · subst hy
            simp [Spec.startsWithTwoHex, hx, List.takeWhile_cons]
            exact .inr (by decide)
          · simp [Spec.startsWithTwoHex, isHex_spec, hx, hy, List.takeWhile_cons]
            intro h; omega
    · obtain ⟨h', t, e⟩ : ∃ h' t, splitOn c!"%" cs = h' :: t := by
        cases e : splitOn c!"%" cs with
        | nil => exact absurd e (splitOn_ne_nil _ _)
        | cons h' t => exact ⟨h', t, rfl⟩
      rw [splitOn_other hc e, ih, e]
      simp [hc]

theorem opaque_reports {s : Str} : types (parseOpaqueHost s).log = (Spec.opaqueReports s).take 1 := by
  unfold parseOpaqueHost Spec.opaqueReports
  by_cases hf : s.any isForbiddenHost = true
  · rw [if_pos hf, if_pos (by
      rw [List.any_eq_true] at hf
      obtain ⟨x, hx, hf⟩ := hf
      exact ⟨x, hx, (isForbiddenHost_iff x).1 hf⟩)]
    rfl
  · have hf' : ¬ ∃ x ∈ s, Spec.ForbiddenHostCP x := by
      rintro ⟨x, hx, h⟩
      exact hf (List.any_eq_true.2 ⟨x, hx, (isForbiddenHost_iff x).2 h⟩)
    rw [if_neg hf, if_neg hf']
    unfold urlUnitsError
    simp only [Bool.false_or]
    cases h1 : s.find? (fun c => !(isUrlCP c || c == c!"%")) with
    | some c =>
      have hc := List.find?_some h1
      have hm := List.mem_of_find?_eq_some h1
      simp only [Bool.not_eq_true', Bool.or_eq_false_iff, beq_eq_false_iff_ne] at hc
      have hex : ∃ c ∈ s, ¬ Spec.URLCodePoint c ∧ c ≠ c!"%" :=
        ⟨c, hm, (fun h => by rw [(urlCodePoint_iff c).1 h] at hc; cases hc.1), hc.2⟩
      rw [if_pos hex]
      rfl
    | none =>
      rw [List.find?_eq_none] at h1
      have hex : ¬ ∃ c ∈ s, ¬ Spec.URLCodePoint c ∧ c ≠ c!"%" := by
        rintro ⟨c, hc, h2, h3⟩
        refine h1 c hc ?_
        have : isUrlCP c = false := by
          rw [Bool.eq_false_iff]; exact fun h => h2 ((urlCodePoint_iff c).2 h)
        simp [this, h3]
      rw [if_neg hex, List.nil_append, badEscape_eq]
      dsimp only
      cases h2 : ((splitOn c!"%" s).drop 1).find? (fun p => decide (p.length < 2) || (p.take 2).any (!isHex ·)) with
      | some p =>
        rw [if_pos (List.any_eq_true.2 ⟨p, List.mem_of_find?_eq_some h2, List.find?_some h2⟩)]
        rfl
      | none =>
        rw [List.find?_eq_none] at h2
        have hany : ((splitOn c!"%" s).drop 1).any (fun p => decide (p.length < 2) || (p.take 2).any (!isHex ·)) = false := by
          rw [List.any_eq_false]; exact h2
        rw [hany]
        rfl

theorem opaque_reports_two {s : Str} : (Spec.opaqueReports s).take 1 = Spec.opaqueReports s ∨
    (Spec.opaqueReports s = [.invalidURLUnit, .invalidURLUnit]) := by
  unfold Spec.opaqueReports
  split
  · exact .inl rfl
  · split
    · split
      · exact .inr rfl
      · exact .inl rfl
    · split
      · exact .inl rfl
      · exact .inl rfl

/-! ### Hosts -/

theorem domainToAscii_ok_log {env : Env} {d a : Str} {b : Bool} {log : Log} (h : domainToAscii env d b = ⟨.ok a, log⟩) :
    log = [] := by
  unfold domainToAscii at h
  split at h
  · simp [Res.err] at h
  · dsimp only at h
    generalize maskErrors _ _ = m at h
    split at h
    · simp [Res.err] at h
    · split at h
      · simp [Res.err] at h
      · simp only [Res.ok, Res.mk.injEq] at h; exact h.2.symm

theorem domainToAscii_err_log {env : Env} {d : Str} {e : Err} {b : Bool} {log : Log}
    (h : domainToAscii env d b = ⟨.error e, log⟩) : log = [.ev .domainToASCII] := by
  unfold domainToAscii at h
  split at h
  · simp only [Res.err, Res.mk.injEq] at h; exact h.2.symm
  · dsimp only at h
    generalize maskErrors _ _ = m at h
    split at h
    · simp only [Res.err, Res.mk.injEq] at h; exact h.2.symm
    · split at h
      · simp only [Res.err, Res.mk.injEq] at h; exact h.2.symm
      · simp [Res.ok] at h

theorem hostParse_reports {env : Env} (he : EnvOK env) {s : Str} (hs : IsScalarStr s) {m : Bool} (hne : s ≠ [] ∨ m = true)
    (h : Spec.RegularHost (Spec.domainToASCII (env.nameToAscii false)) s m) (hl : ¬ LongInput env s.length) :
    Spec.HostTally s m ((hostParse env s m).val = none) (Spec.hostReports (env.nameToAscii false) s m)
      (types (hostParse env s m).log) := by
  have herr : ∀ e, (hostParse env s m).res = .error e → e.isURLParseError = true := by
    intro e h
    rcases hostParse_err hs.isStr h with h | ⟨_, h⟩
    · exact h
    · exact absurd h hl
  have hlog := hostParse_log env s m
  have hstd := hostParse_std he hs hne h
  obtain ⟨h6, h4⟩ := h
  unfold Spec.hostReports
  cases s with
  | nil =>
    rcases hne with h | rfl
    · exact absurd rfl h
    · exact .same (r := []) (fun _ => by decide) (fun h => by cases h)
  | cons c t =>
    by_cases hc : c = c!"["
    · subst hc
      rw [List.head?_cons, if_pos rfl]
      have hval : hostParse env (c!"[" :: t) m = if (c!"[" :: t).getLastD 0 ≠ c!"]" then .err .ipv6Parse [.ev .ipv6Unclosed]
          else match ipv6Parse env t.dropLast with
            | ⟨.ok a, log⟩ => .ok (.ipv6 a) log
            | ⟨.error e, log⟩ => .err e log := rfl
      rw [getLastD_eq _ _ (by simp)] at hval
      rw [List.getLast?_eq_some_getLast (by simp : c!"[" :: t ≠ [])]
      by_cases hlast : (c!"[" :: t).getLast (by simp) = c!"]"
      · rw [hlast, if_neg (by simp)] at hval
        rw [hlast, if_neg (by simp), List.tail_cons]
        have hstd' : (hostParse env (c!"[" :: t) m).val = (Spec.ipv6Parse t.dropLast).map Host.ipv6 := by
          rw [hstd]
          unfold Spec.hostParser Spec.hostParserWith
          rw [List.head?_cons, if_pos rfl, List.getLast?_eq_some_getLast (by simp : c!"[" :: t ≠ []), hlast,
            if_neg (by simp), List.tail_cons]
        rcases h6p : ipv6Parse env t.dropLast with ⟨r, log⟩
        rw [h6p] at hval
        cases r with
        | ok a =>
          have := ipv6Parse_ok_log h6p
          subst this
          dsimp only at hval
          rw [hval] at hstd' ⊢
          have hn : Spec.ipv6Reports t.dropLast = [] := by
            rw [Spec.ipv6Reports_nil]
            cases hp : Spec.ipv6Parse t.dropLast with
            | none => rw [hp] at hstd'; cases hstd'
            | some a => exact ⟨a, rfl⟩
          rw [hn]
          exact .same (fun _ => by decide) (fun _ h => by cases h)
        | error e =>
          dsimp only at hval
          have hrec := hlog.recorded e (by rw [hval]; rfl) (herr e (by rw [hval]; rfl))
          rw [hval] at hstd' hrec ⊢
          refine .ipv6 rfl rfl ?_ ?_
          · intro hn
            rw [Spec.ipv6Reports_nil] at hn
            obtain ⟨a, ha⟩ := hn
            rw [ha] at hstd'
            cases hstd'
          · intro hn
            rw [types_eq_nil] at hn
            obtain ⟨x, hx⟩ := hrec
            rw [hn] at hx
            cases hx
      · rw [if_pos hlast] at hval
        rw [if_pos (by simpa using hlast), hval]
        exact .same (fun _ => by decide) (fun _ _ => by decide)
    · rw [List.head?_cons, if_neg (by simpa using hc)]
      cases m with
      | true =>
        have hval : hostParse env (c :: t) true = match parseOpaqueHost (c :: t) with
            | ⟨.ok s, log⟩ => .ok (.str s) log
            | ⟨.error e, log⟩ => .err e log := by
          unfold hostParse
          dsimp only
          rw [if_neg hc]
          rfl
        have hlog' : (hostParse env (c :: t) true).log = (parseOpaqueHost (c :: t)).log := by
          rw [hval]
          rcases parseOpaqueHost (c :: t) with ⟨r, log⟩
          cases r <;> rfl
        rw [hlog', opaque_reports, if_pos rfl]
        rcases opaque_reports_two (s := c :: t) with h2 | h2
        · rw [h2]; exact .same (fun _ h => by rw [h] at h2; cases h2) (fun h => by cases h)
        · rw [h2]; exact .twoUnits rfl
      | false =>
        simp only [Bool.false_eq_true, if_false]
        have hdec : utf8Decode (stringPercentDecode (c :: t)) =
            Spec.utf8Decode (Spec.percentDecode (Spec.utf8 (c :: t))) := by
          unfold stringPercentDecode
          rw [percentDecode_eq, utf8Encode_eq _ hs.isStr, utf8Decode_eq]
        have h4 := h4 rfl (by simpa using hc)
        rw [← hdec, ← domainToAscii_std] at h4 ⊢
        have hval : hostParse env (c :: t) false = match domainToAscii env (utf8Decode (stringPercentDecode (c :: t))) false with
            | ⟨.error e, log⟩ => .err e log
            | ⟨.ok ascii, log⟩ =>
              if ascii.any isForbiddenDomain then .err .hostParse (.ev .domainInvalidCodePoint :: log)
              else if isEndsInANumber env ascii then
                match ipv4Parse env ascii with
                | ⟨.ok n, log'⟩ => .ok (.ipv4 n) (log' ++ log)
                | ⟨.error e, log'⟩ => .err e (log' ++ log)
              else .ok (.str ascii) log := by
          unfold hostParse
          dsimp only
          rw [if_neg hc]
          rfl
        rw [hval]
        rcases hd : domainToAscii env (utf8Decode (stringPercentDecode (c :: t))) false with ⟨r, log⟩
        rw [hd] at h4
        cases r with
        | error e =>
          have := domainToAscii_err_log hd
          subst this
          exact .same (r := [.domainToASCII]) (fun h => by cases h) (fun _ _ => by decide)
        | ok a =>
          have := domainToAscii_ok_log hd
          subst this
          have h4 := h4 a rfl
          have hla : env.maxStrDigits = 0 ∨ 2 * a.length ≤ env.maxStrDigits := by
            by_cases h0 : env.maxStrDigits = 0
            · exact .inl h0
            · right
              by_contra hlt
              exact hl ⟨h0, .inr ⟨_, _, _, decoded_length hs.isStr, hd, by omega⟩⟩
          have hsome : Res.val ⟨.ok a, []⟩ = some a := rfl
          rw [hsome]
          dsimp only
          by_cases hf : a.any isForbiddenDomain = true
          · rw [if_pos hf, if_pos (by
              rw [List.any_eq_true] at hf
              obtain ⟨x, hx, hf⟩ := hf
              exact ⟨x, hx, (isForbiddenDomain_iff x).1 hf⟩)]
            exact .same (fun h => by cases h) (fun _ _ => by decide)
          · have hf' : ¬ ∃ x ∈ a, Spec.ForbiddenDomainCP x := by
              rintro ⟨x, hx, h⟩
              exact hf (List.any_eq_true.2 ⟨x, hx, (isForbiddenDomain_iff x).2 h⟩)
            rw [if_neg hf, if_neg hf']
            rw [endsInANumber_agree env he a (by rw [partsOf_eq]; exact h4.1)]
            cases hn : Spec.endsInANumber a with
            | false => exact .same (fun h => by cases h) (fun _ h => by cases h)
            | true =>
              obtain ⟨hp, hbug⟩ := h4.2 hn
              simp only [if_true]
              have hr := ipv4_reports env he hp hla
              rcases h4p : ipv4Parse env a with ⟨r, log⟩
              rw [h4p] at hr
              dsimp only at hr
              cases r with
              | ok n =>
                rcases hr with ⟨hr, _⟩ | ⟨⟨e, hr⟩, _⟩
                · simp only [Res.ok, List.append_nil]
                  rw [← hr]; exact .same (fun h => by cases h) (fun _ h => by cases h)
                · cases hr
              | error e =>
                simp only [Res.err, List.append_nil]
                rcases hr with ⟨hr, hr'⟩ | ⟨_, l, hr1, hr2⟩
                · rw [← hr]; exact .same (fun h => by cases h) (fun _ _ => by rw [hr]; exact hr' ⟨_, rfl⟩)
                · rw [hr1, hr2]; exact .range rfl rfl

end Urlstd
