/-
Valid host strings.
-/
import Verif.Lemmas.Validity
import Verif.Lemmas.IPv4b

set_option linter.unusedSimpArgs false
set_option linter.unusedVariables false

namespace Urlstd

open Spec (IsStr)

/-! ### IPv4 -/

/-- `int()` reads the part as a decimal number up to 255 -/
def ByteText (env : Env) (p : Str) (v : Nat) : Prop := parseIPv4Number env p = (Int.ofNat v, false) ∧ v ≤ 255

theorem validIPv4Parts_none {env : Env} {parts : List Str} :
    validIPv4Parts env parts = none ↔ ∀ p ∈ parts, ∃ v, ByteText env p v := by
  induction parts with
  | nil => simp [validIPv4Parts]
  | cons p ps ih =>
    unfold validIPv4Parts
    dsimp only
    rcases hp : parseIPv4Number env p with ⟨i, f⟩
    simp only [List.mem_cons, forall_eq_or_imp]
    constructor
    · intro h
      split at h
      · cases h
      · split at h
        · cases h
        · split at h
          · cases h
          · rename_i h1 h2 h3
            refine ⟨⟨i.toNat, ?_, ?_⟩, ih.1 h⟩
            · rw [hp]
              have : i = Int.ofNat i.toNat := by
                rw [Int.ofNat_eq_natCast, Int.toNat_of_nonneg (by omega)]
              rw [← this]
              simp only [Bool.not_eq_true] at h2
              rw [h2]
            · simp at h3; omega
    · rintro ⟨⟨v, hv, hle⟩, h⟩
      rw [hp] at hv
      cases hv
      rw [if_neg (by simp), if_neg (by simp), if_neg]
      · exact ih.2 h
      · simp; omega

theorem isValidIPv4_iff {env : Env} {s : Str} : (isValidIPv4Address env s).res = .ok true ↔
    ∃ a b c d, splitOn c!"." s = [a, b, c, d] ∧ ∀ p ∈ [a, b, c, d], ∃ v, ByteText env p v := by
  unfold isValidIPv4Address
  dsimp only
  constructor
  · intro h
    split at h
    · simp at h
    · split at h
      · simp at h
      · split at h
        · simp at h
        · split at h
          · simp at h
          · rename_i h1 h2 h3 h4
            have hl : (splitOn c!"." s).length = 4 := by omega
            match hsp : splitOn c!"." s, hl with
            | [a, b, c, d], _ =>
              rw [hsp] at h4
              exact ⟨a, b, c, d, rfl, validIPv4Parts_none.1 h4⟩
  · rintro ⟨a, b, c, d, hsp, h⟩
    rw [hsp]
    have hd : d.isEmpty = false := by
      obtain ⟨v, hv, _⟩ := h d (by simp)
      cases d with
      | nil => simp [parseIPv4Number] at hv
      | cons _ _ => rfl
    rw [if_neg (by simpa using hd), if_neg (by simp), if_neg (by simp), validIPv4Parts_none.2 h]

theorem byteText_plain {env : Env} {p : Str} {v : Nat} (hp : Spec.StrictPart p) (h : ByteText env p v) : p = natDec v := by
  have key : ∀ q, StrictText 10 q → pyInt env 10 q = some (Int.ofNat v) → (q.length ≥ 2 → q.headD 0 ≠ 48) → q = natDec v := by
    intro q hq hi hz
    have hn : q ≠ [] ∧ IsNumeral 10 q := by
      by_contra hc
      rw [pyInt_strict_none env (by omega) hq (by
        by_cases h0 : q = []
        · exact .inl h0
        · right; intro h1; exact hc ⟨h0, h1⟩)] at hi
      cases hi
    have hlen : env.maxStrDigits = 0 ∨ q.length ≤ env.maxStrDigits := by
      by_contra hc
      rw [pyInt_long env hn.2 hn.1 (by omega)] at hi
      cases hi
    rw [pyInt_numeral env (by omega) hn.2 hn.1 (fun _ => hlen)] at hi
    simp only [Option.some.injEq, Int.ofNat_eq_natCast, Int.natCast_inj] at hi
    rw [← hi, natDec_numVal (fun c hc => digitValue_lt10.1 (hn.2 c hc)) hn.1 hz]
  obtain ⟨h, _⟩ := h
  unfold parseIPv4Number at h
  split at h
  · simp at h
  · rename_i c
    split at h
    · rename_i w hw
      simp only [Prod.mk.injEq, and_true] at h
      subst h
      exact key _ (StrictPart_one hp) hw (by simp)
    · simp at h
  · rename_i c0 c1 rest
    split at h
    · split at h
      · simp at h
      · split at h <;> simp at h
    · split at h
      · split at h <;> simp at h
      · split at h
        · rename_i h1 h2 _ w hw
          simp only [Prod.mk.injEq, and_true] at h
          subst h
          exact key _ (StrictPart_dec (by simpa using h2) hp) hw (fun _ => by simpa using h2)
        · simp at h

theorem ipv4Serialize_of_bytes {a b c d : Nat} (ha : a ≤ 255) (hb : b ≤ 255) (hc : c ≤ 255) (hd : d ≤ 255) :
    ipv4Serialize (a * 2 ^ 24 + b * 2 ^ 16 + c * 2 ^ 8 + d) =
      joinWith u!"." [natDec a, natDec b, natDec c, natDec d] := by
  rw [ipv4Serialize_eq]
  have h1 : (a * 2 ^ 24 + b * 2 ^ 16 + c * 2 ^ 8 + d) / 2 ^ 24 % 256 = a := by omega
  have h2 : (a * 2 ^ 24 + b * 2 ^ 16 + c * 2 ^ 8 + d) / 2 ^ 16 % 256 = b := by omega
  have h3 : (a * 2 ^ 24 + b * 2 ^ 16 + c * 2 ^ 8 + d) / 2 ^ 8 % 256 = c := by omega
  have h4 : (a * 2 ^ 24 + b * 2 ^ 16 + c * 2 ^ 8 + d) % 256 = d := by omega
  rw [h1, h2, h3, h4]
  simp [joinWith]

theorem ipv4Numbers_bytes (env : Env) {p : Str} {v : Nat} (h : ByteText env p v) (ps : List Str) (acc : List Nat) (log : Log) :
    ipv4Numbers env (p :: ps) acc log = ipv4Numbers env ps (acc ++ [v]) log := by
  rw [ipv4Numbers, h.1]
  simp only [Bool.false_eq_true, if_false]
  rw [if_neg (by simp)]
  rfl

theorem ipv4Parse_bytes {env : Env} {s a b c d : Str} (hs : splitOn c!"." s = [a, b, c, d]) {va vb vc vd : Nat}
    (ha : ByteText env a va) (hb : ByteText env b vb) (hc : ByteText env c vc) (hd : ByteText env d vd) :
    ipv4Parse env s = .ok (va * 2 ^ 24 + vb * 2 ^ 16 + vc * 2 ^ 8 + vd) := by
  have hde : d.isEmpty = false := by
    cases d with
    | nil => have := hd.1; simp [parseIPv4Number] at this
    | cons _ _ => rfl
  have la := ha.2
  have lb := hb.2
  have lc := hc.2
  have ld := hd.2
  unfold ipv4Parse
  simp only [hs, List.getLastD_cons, List.getLastD_nil, hde, Bool.false_and, Bool.false_eq_true, if_false,
    List.length_cons, List.length_nil]
  rw [if_neg (by omega), ipv4Numbers_bytes env ha, ipv4Numbers_bytes env hb, ipv4Numbers_bytes env hc,
    ipv4Numbers_bytes env hd]
  simp only [ipv4Numbers, List.nil_append, List.cons_append, Res.ok]
  have hany : ([va, vb, vc, vd].any (· > 255)) = false := by simp; omega
  have hany2 : ([va, vb, vc, vd].dropLast.any (· > 255)) = false := by simp; omega
  simp only [hany, hany2, Bool.false_and, Bool.false_eq_true, if_false]
  rw [if_neg (by simp; omega)]
  simp only [List.dropLast, ipv4Sum, List.getLastD_cons, List.getLastD_nil]
  congr 2
  omega

/-! ### Opaque hosts -/

theorem urlUnitsError_none_iff (exc : Nat → Bool) (s : Str) :
    urlUnitsError exc s = none ↔ s.any exc = false ∧ urlUnitsError (fun _ => false) s = none := by
  unfold urlUnitsError
  simp only [Bool.false_or]
  cases h1 : s.find? (fun c => exc c || !(isUrlCP c || c == c!"%")) with
  | some c =>
    have hc := List.find?_some h1
    have hm := List.mem_of_find?_eq_some h1
    simp only [Bool.or_eq_true] at hc
    refine ⟨fun h => (by cases h), fun ⟨h2, h3⟩ => ?_⟩
    rcases hc with hc | hc
    · rw [List.any_eq_false] at h2
      exact absurd hc (h2 c hm)
    · have : s.find? (fun c => !(isUrlCP c || c == c!"%")) ≠ none := by
        intro hn
        rw [List.find?_eq_none] at hn
        exact absurd hc (hn c hm)
      split at h3
      · cases h3
      · contradiction
  | none =>
    rw [List.find?_eq_none] at h1
    have h2 : s.any exc = false := by
      rw [List.any_eq_false]
      intro c hc hx
      exact h1 c hc (by simp [hx])
    have h3 : s.find? (fun c => !(isUrlCP c || c == c!"%")) = none := by
      rw [List.find?_eq_none]
      intro c hc hx
      exact h1 c hc (by simp [hx] )
    rw [h3, h2]
    simp

theorem bracketed_some {s a : Str} : bracketed s = some a ↔ s = u!"[" ++ a ++ u!"]" := by
  unfold bracketed
  constructor
  · intro h
    split at h
    · rename_i t
      split at h
      · rename_i hl
        cases h
        rcases List.eq_nil_or_concat t with rfl | ⟨q, x, rfl⟩
        · simp at hl
        · simp only [List.concat_eq_append] at hl ⊢
          have : x = 93 := by simpa [List.getLastD_eq_getLast?, List.getLast?_cons, List.getLast?_append] using hl
          subst this
          simp
      · cases h
    · cases h
  · rintro rfl
    simp [List.getLastD_eq_getLast?, List.getLast?_cons, List.getLast?_append]

/-- `Host.parse` on a bracketed text -/
theorem hostParse_bracketed (env : Env) (a : Str) (m : Bool) :
    hostParse env (u!"[" ++ a ++ u!"]") m =
      match ipv6Parse env a with
      | ⟨.ok p, log⟩ => .ok (.ipv6 p) log
      | ⟨.error e, log⟩ => .err e log := by
  have e : u!"[" ++ a ++ u!"]" = 91 :: (a ++ [93]) := rfl
  rw [e]
  unfold hostParse
  dsimp only
  rw [if_pos rfl, if_neg (by simp [List.getLastD_eq_getLast?, List.getLast?_cons, List.getLast?_append]), List.dropLast_concat]
  rfl

/-- `Host.parse` of a non-special host that is not in brackets -/
theorem hostParse_notBracketed (env : Env) {s : Str} (hne : s ≠ []) (h : bracketed s = none) :
    hostParse env s true = .err .ipv6Parse [.ev .ipv6Unclosed] ∧ s.any isForbiddenHost = true ∨
    hostParse env s true =
      match parseOpaqueHost s with
      | ⟨.ok s, log⟩ => .ok (.str s) log
      | ⟨.error e, log⟩ => .err e log := by
  unfold hostParse
  cases s with
  | nil => exact absurd rfl hne
  | cons c t =>
    dsimp only
    by_cases hc : c = 91
    · subst hc
      left
      rw [if_pos rfl]
      by_cases hl : (91 :: t).getLastD 0 = 93
      · unfold bracketed at h
        simp only [hl, if_true] at h
        cases h
      · rw [if_pos hl]
        exact ⟨rfl, by simp [isForbiddenHost]⟩
    · right
      rw [if_neg hc, if_pos rfl]
      rfl

/-- the IPv6 parser records nothing when it succeeds -/
theorem ipv6Parse_ok_log {env : Env} {s : Str} {a : List Nat} {log : Log} (h : ipv6Parse env s = ⟨.ok a, log⟩) :
    log = [] := by
  unfold ipv6Parse at h
  dsimp only at h
  split at h
  · simp [Res.err] at h
  · unfold v6Run at h
    split at h
    · simp [Res.err] at h
    · unfold v6Finish at h
      split at h
      · split at h
        · simp only [Res.ok, Res.mk.injEq] at h; exact h.2.symm
        · simp [Res.err] at h
      · split at h
        · simp [Res.err] at h
        · simp only [Res.ok, Res.mk.injEq] at h; exact h.2.symm

theorem isValidIPv6_iff {env : Env} {s : Str} : (isValidIPv6Address env s).res = .ok true ↔
    ∃ a, ipv6Parse env.quiet s = .ok a := by
  unfold isValidIPv6Address
  dsimp only
  rw [ipv6Parse_recording]
  rcases h : ipv6Parse env.quiet s with ⟨r, log⟩
  cases r with
  | ok a =>
    have := ipv6Parse_ok_log h
    subst this
    exact ⟨fun _ => ⟨a, rfl⟩, fun _ => rfl⟩
  | error e =>
    refine ⟨fun h => ?_, fun ⟨a, ha⟩ => by simp [Res.ok] at ha⟩
    split at h
    · rename_i heq; cases heq
    · simp at h
    · simp at h

theorem isValidOpaque_iff {env : Env} {s : Str} : (isValidOpaqueHost env s).res = .ok true ↔
    s ≠ [] ∧ ∃ h, hostParse env.quiet s true = .ok h := by
  unfold isValidOpaqueHost
  cases s with
  | nil => simp
  | cons c t =>
    rw [if_neg (by simp)]
    simp only [ne_eq, reduceCtorEq, not_false_eq_true, true_and]
    cases hb : bracketed (c :: t) with
    | some a =>
      dsimp only
      rw [isValidIPv6_iff, bracketed_some.1 hb, hostParse_bracketed]
      constructor
      · rintro ⟨p, hp⟩
        exact ⟨.ipv6 p, by rw [hp]; rfl⟩
      · rintro ⟨h, hh⟩
        rcases hp : ipv6Parse env.quiet a with ⟨r, log⟩
        rw [hp] at hh
        cases r with
        | ok p => exact ⟨p, by rw [ipv6Parse_ok_log hp]; rfl⟩
        | error e => simp [Res.err, Res.ok] at hh
    | none =>
      dsimp only
      have key : (∃ h, hostParse env.quiet (c :: t) true = .ok h) ↔ urlUnitsError isForbiddenHost (c :: t) = none := by
        rw [urlUnitsError_none_iff]
        rcases hostParse_notBracketed env.quiet (by simp) hb with ⟨h1, h2⟩ | h1
        · rw [h1, h2]
          simp [Res.err, Res.ok]
        · rw [h1]
          unfold parseOpaqueHost
          cases hf : (c :: t).any isForbiddenHost with
          | true => simp [Res.err, Res.ok]
          | false =>
            simp only [Bool.false_eq_true, if_false, Res.ok]
            cases hu : urlUnitsError (fun _ => false) (c :: t) with
            | none => simp
            | some _ => simp
      rw [key]
      cases hu : urlUnitsError isForbiddenHost (c :: t) with
      | none => simp
      | some l =>
        simp only [reduceCtorEq, iff_false]
        split
        · rename_i h; cases h
        · split <;> simp
        · simp

theorem hostParse_opaque_recording (env : Env) (s : Str) :
    hostParse env.recording s true = hostParse env.quiet s true := by
  unfold hostParse
  simp only [ipv6Parse_recording]
  rfl

theorem SchemeOK.pyLower {env : Env} {s : Str} (h : SchemeOK s) : Urlstd.pyLower env s = s := by
  have hp := h.print
  have hn : ∀ c ∈ s, ¬ (65 ≤ c ∧ c ≤ 90) := by
    obtain ⟨c, cs, rfl, h1, h2⟩ := h
    intro x hx
    rcases List.mem_cons.1 hx with rfl | hx
    · omega
    · exact (h2 x hx).2
  unfold Urlstd.pyLower
  rw [if_pos (by simp only [List.all_eq_true, decide_eq_true_eq]; intro c hc; have := hp c hc; omega)]
  unfold lower
  rw [List.map_congr_left (g := id), List.map_id]
  intro c hc
  have := hn c hc
  simp only [lowerC, id]
  rw [if_neg (by simpa using this)]

end Urlstd
