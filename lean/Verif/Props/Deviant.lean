/-
Exact versions of C11, C12 and C66: which addresses, hosts and inputs the code reads differently from the standard.
-/
import Verif.Lemmas.Deviant2
import Verif.Props.HostParser
import Verif.Props.IPv4
import Verif.Props.Numeral

namespace Urlstd.Props

open Spec (IsScalarStr Parses ParseAsks hostParser DelOK PartsRead Address OddEnd OddAddress OddIPv6 OddHost StandardEnd)

/-! ### C11 -/

/-- C11 (partial: unless a part before the last and the last part are both above 255), in terms of the numbers that the parts
stand for. -/
theorem C11_parts_partial (env : Env) (hd : DelOK env) (s : Str) (n : Nat) (h : (ipv4Parse env s).res = .ok n)
    (hr : ∀ vs, PartsRead env (Spec.ipv4Parts s) vs → (∀ v ∈ vs.dropLast, v ≤ 255) ∨ vs.getLastD 0 ≤ 255) : n < 2 ^ 32 := by
  obtain ⟨hl, vs, h1, ⟨h2, h3⟩, -, rfl⟩ := ((C88_parse env hd s).1 n).1 h
  have hl' := partsRead_length h1
  refine ipv4Combine_lt (by omega) ?_ h3
  rcases hr vs h1 with h | h
  · exact h
  · exact h2 h

theorem range_two (x c k : Nat) (h : c < k) : x * k + c < k * k ↔ x < k := by
  constructor
  · intro h'
    exact Nat.lt_of_mul_lt_mul_right (a := k) (by omega)
  · intro h'
    have := Nat.mul_le_mul_right k (Nat.succ_le_of_lt h')
    rw [Nat.succ_mul] at this
    omega

theorem range_three (a b c : Nat) (h : c < 2 ^ 16) : a * 2 ^ 24 + b * 2 ^ 16 + c < 2 ^ 32 ↔ a * 256 + b < 2 ^ 16 := by
  have := range_two (a * 256 + b) c (2 ^ 16) h
  rw [Nat.add_mul, Nat.mul_assoc] at this
  exact this

/-- C11, exactly: when the numbers of an accepted text give a 32-bit address. With one or four parts they always do; with two
parts the first number has to be at most 255, with three parts the first two have to fit into 16 bits. -/
theorem C11_exact (env : Env) (hd : DelOK env) (s : Str) (n : Nat) (h : (ipv4Parse env s).res = .ok n) (vs : List Nat)
    (hv : PartsRead env (Spec.ipv4Parts s) vs) :
    n < 2 ^ 32 ↔ (∀ a b, vs = [a, b] → a ≤ 255) ∧ ∀ a b c, vs = [a, b, c] → a * 256 + b < 2 ^ 16 := by
  obtain ⟨hl, ws, h1, ⟨h2, h3⟩, -, rfl⟩ := ((C88_parse env hd s).1 n).1 h
  obtain rfl := partsRead_unique hd h1 hv
  have hl' := partsRead_length h1
  match ws, hl' with
  | [], _ => simp [Spec.ipv4Combine]
  | [a], _ =>
    simp only [List.length_cons, List.length_nil, List.getLastD_cons, List.getLastD_nil] at h3
    simp only [Spec.ipv4Combine, List.cons.injEq, reduceCtorEq, and_false, false_implies, implies_true, and_self, iff_true]
    exact h3
  | [a, b], _ =>
    simp only [List.length_cons, List.length_nil, List.getLastD_cons, List.getLastD_nil] at h3
    have h3' : b < 16777216 := h3
    clear h3 h2
    simp only [Spec.ipv4Combine]
    refine ⟨fun h => ⟨?_, ?_⟩, fun h => ?_⟩
    · intro a' b' he; simp only [List.cons.injEq, and_true] at he; omega
    · intro a' b' c' he; simp at he
    · have := h.1 a b rfl; omega
  | [a, b, c], _ =>
    simp only [List.length_cons, List.length_nil, List.getLastD_cons, List.getLastD_nil] at h3
    have h3' : c < 65536 := h3
    clear h3 h2
    simp only [Spec.ipv4Combine]
    refine ⟨fun h => ⟨?_, ?_⟩, fun h => ?_⟩
    · intro a' b' he; simp at he
    · intro a' b' c' he
      simp only [List.cons.injEq, and_true] at he
      obtain ⟨rfl, rfl, rfl⟩ := he
      exact (range_three _ _ _ h3').1 h
    · exact (range_three _ _ _ h3').2 (h.2 a b c rfl)
  | [a, b, c, d], _ =>
    simp only [List.length_cons, List.length_nil, List.getLastD_cons, List.getLastD_nil] at h3
    have h3' : d < 256 := h3
    have h4 := h2 (show d ≤ 255 by omega)
    have ha := h4 a (by simp)
    have hb := h4 b (by simp)
    have hc := h4 c (by simp)
    simp only [Spec.ipv4Combine, List.cons.injEq, reduceCtorEq, and_false, false_implies, implies_true, and_self, iff_true]
    omega
  | _ :: _ :: _ :: _ :: _ :: _, hl' => simp at hl'; omega

-- three parts, of which the second is above 255: in range with a small first part, out of range with 255
example : (ipv4Parse exEnv u!"1.0x1ff.256").val = some 50266368 ∧
    (ipv4Parse exEnv u!"255.256.256").val = some 4294967552 := by decide +kernel

theorem hexPart_reads (env : Env) (n : Nat) : Spec.PartReads env (u!"0x" ++ Spec.hexText n) n := by
  have e : Spec.partRadix (u!"0x" ++ Spec.hexText n) = (16, Spec.hexText n) := rfl
  right
  rw [e]
  have hh : ∀ c ∈ Spec.hexText n, c < 128 := by
    intro c hc
    rw [← natHex_eq] at hc
    have := natHex_mem n c hc
    omega
  refine ⟨[], [], [], [Spec.hexText n], [], n, ?_, by simp, by simp, by simp, by simp [Spec.pyRadixPrefixes], by simp, ?_, ?_, ?_, fun h => by cases h⟩
  · rw [plainText_ascii env hh]
    simp [List.intercalate]
  · intro g hg
    rw [List.mem_singleton] at hg
    rw [hg, ← natHex_eq]
    exact natHex_ne_nil n
  · have : [Spec.hexText n].flatten = Spec.hexText n := by simp
    rw [this, ← natHex_eq, radixValue_numeral (by decide) (natHex_numeral n), natHex_val]
  · rfl

/-- C11: the exception has no bound. Every number is the first part of a text that is read as an address, together with "0x100". (If
validation errors are recorded, the number has to be within Python's limit on digits.) -/
theorem C11_unbounded (env : Env) (hd : DelOK env) (hm : env.maxStrDigits = 0 ∨ env.validity = false) (n : Nat) :
    (ipv4Parse env (u!"0x" ++ Spec.hexText n ++ u!".0x100")).res = .ok (n * 2 ^ 24 + 256) := by
  rw [(C88_parse env hd _).1]
  have h1 : c!"." ∉ u!"0x" ++ Spec.hexText n := by
    intro h
    rw [← natHex_eq] at h
    simp only [List.mem_append, List.mem_cons, List.not_mem_nil, or_false] at h
    rcases h with (h | h) | h
    · cases h
    · cases h
    · have := natHex_mem n _ h
      omega
  have e : Spec.ipv4Parts (u!"0x" ++ Spec.hexText n ++ u!".0x100") = [u!"0x" ++ Spec.hexText n, u!"0x100"] := by
    rw [← partsOf_eq]
    unfold partsOf
    dsimp only
    have : u!"0x" ++ Spec.hexText n ++ u!".0x100" = (u!"0x" ++ Spec.hexText n) ++ c!"." :: u!"0x100" := rfl
    rw [this, splitOn_append h1, splitOn_no_sep (by decide)]
    rfl
  have hf : Spec.Fits [n, 256] := by
    constructor
    · intro h; simp at h
    · show 256 < 256 ^ (5 - 2)
      decide
  unfold Address
  rw [e]
  refine ⟨by simp, [n, 256], .cons (hexPart_reads env n) (.cons ?_ .nil), hf, ?_, rfl⟩
  · have := hexPart_reads env 256
    rw [show Spec.hexText 256 = u!"100" by decide +kernel] at this
    exact this
  · rintro ⟨⟨v, -, h2, -⟩, h | h⟩
    · rcases hm with hm | hm
      · exact h2 hm
      · rw [h.1] at hm; cases hm
    · exact h hf

example : (ipv4Parse { exEnv with validity := false } u!"0x100000000.0x100").res = .ok (2 ^ 56 + 256) := by
  have := C11_unbounded { exEnv with validity := false } exEnv_del (.inr rfl) (2 ^ 32)
  rw [show Spec.hexText (2 ^ 32) = u!"100000000" by decide +kernel] at this
  exact this

/-! ### C12 -/

/-- C12: whatever the standard accepts is accepted, with the same address; whatever ends in a number for the standard does so for
the code. -/
theorem C12_accepts (env : Env) (he : EnvOK env) (hd : DelOK env) (s : Str) :
    (∀ n, Spec.ipv4Parse s = some n → (ipv4Parse env s).res = .ok n) ∧
    (Spec.endsInANumber s = true → isEndsInANumber env s = true) :=
  ⟨fun _ h => (val_iff _ _).1 (ipv4Parse_accepts he h), ends_accepts he hd⟩

/-- C12, exactly: the two checkers differ if and only if the last part is a number for Python only; the two parsers differ if and
only if the text is an address for the code with a part that is no number for the standard or a part before the last above 255. -/
theorem C12_exact (env : Env) (he : EnvOK env) (hd : DelOK env) (s : Str) :
    (isEndsInANumber env s ≠ Spec.endsInANumber s ↔ OddEnd env s) ∧
    ((ipv4Parse env s).val ≠ Spec.ipv4Parse s ↔ OddAddress env s) :=
  ⟨ends_odd he hd s, ipv4Parse_odd he hd s⟩

example : OddEnd exEnv u!"a.-0" ∧ OddAddress exEnv u!"256.256" ∧ OddAddress exEnv u!"1_0.1" ∧
    ¬ OddAddress exEnv u!"0x7F.010.65535" ∧ ¬ OddEnd exEnv u!"a_b.my-host" := by
  have h := C12_exact exEnv (.inr (by decide)) exEnv_del
  refine ⟨(h _).1.1 (by decide +kernel), (h _).2.1 (by decide +kernel), (h _).2.1 (by decide +kernel), ?_, ?_⟩
  · intro hc; exact (h _).2.2 hc (by decide +kernel)
  · intro hc; exact (h _).1.2 hc (by decide +kernel)

/-! ### C66 -/

/-- C66, exactly: the host parser and the standard's differ on the texts of `OddHost` and on no others. -/
theorem C66_host_exact (env : Env) (he : EnvOK env) (hd : DelOK env) (s : Str) (hs : IsScalarStr s) (isOpaque : Bool)
    (hne : s ≠ [] ∨ isOpaque = true) :
    (hostParse env s isOpaque).val ≠ hostParser (env.nameToAscii false) s isOpaque ↔ OddHost env s isOpaque :=
  hostParse_odd he hd hs hne

/-- C66, exactly (where C65 holds): the URL parser and the standard's agree on an input if and only if no text of `OddHost` is
handed to the host parser, or neither accepts the input. -/
theorem C66_parser_exact_partial (env : Env) (henv : EnvOK env) (hd : DelOK env) (base : Option Rec)
    (hb : ∀ b, base = some b → Parsed env b) (s : Str) (hs : IsScalarStr s) (e : Encoding) (he : EncOK e) (hn : NoRef e)
    (hl : ¬ LongInput env s.length) (hf : ∀ b, base = some b → b.scheme = u!"file" → ¬ BareFile s) :
    (∀ u, (parseUrl env s (baseArg base) e).res = .ok u ↔ Parses (hostParser (env.nameToAscii false)) s base e (.ok u)) ↔
      (∀ t m, ParseAsks (hostParser (env.nameToAscii false)) s base e t m → ¬ OddHost env t m) ∨
      ∀ u, (parseUrl env s (baseArg base) e).res ≠ .ok u ∧ ¬ Parses (hostParser (env.nameToAscii false)) s base e (.ok u) := by
  obtain ⟨h1, h2⟩ := C65_parser_partial env base hb s hs e he hn hl hf
  have hask : ∀ t m, ParseAsks (hostParser (env.nameToAscii false)) s base e t m → IsScalarStr t ∧ (t ≠ [] ∨ m = true) := by
    intro t m ha
    obtain ⟨g1, g2⟩ := asks_mem (K := ⟨base, Spec.encoder e, none, hostParser (env.nameToAscii false)⟩) ha
      ⟨fun h => by simp [Spec.Cfg.start, hostState] at h, fun _ => rfl⟩
    refine ⟨?_, g2⟩
    intro c hc
    have := g1 c hc
    rw [prepared_std] at this
    exact hs c (prepared_mem c this)
  constructor
  · intro h
    by_cases hc : ∀ t m, ParseAsks (hostParser (env.nameToAscii false)) s base e t m → ¬ OddHost env t m
    · exact .inl hc
    · right
      simp only [not_forall, not_not] at hc
      obtain ⟨t, m, ha, hodd⟩ := hc
      obtain ⟨g1, g2⟩ := hask t m ha
      have hno : ∀ u, (parseUrl env s (baseArg base) e).res = .ok u → False := by
        intro u hu
        refine Halts_differ (K := ⟨base, Spec.encoder e, none, hostParser (env.nameToAscii false)⟩) (hp := hostOf env) rfl ha ?_
          ((h u).1 hu) ((h1 u).1 hu)
        intro st x y hx hy heq
        rw [hostOf_eq] at hy
        have := odd_intoRecord (hostParse_odd_address henv hd g1.isStr g2 hodd hy) heq
        subst this
        exact (C66_host_exact env henv hd t g1 m g2).2 hodd (hy.trans hx.symm)
      exact fun u => ⟨fun hu => hno u hu, fun hu => hno u ((h u).2 hu)⟩
  · rintro (h | h) u
    · rw [h1]
      refine Halts_iff (K := ⟨base, Spec.encoder e, none, hostParser (env.nameToAscii false)⟩) (hp := hostOf env) ?_
      intro t m ha
      obtain ⟨g1, g2⟩ := hask t m ha
      rw [hostOf_eq]
      by_contra hc
      exact h t m ha ((C66_host_exact env henv hd t g1 m g2).1 (fun h => hc h.symm))
    · exact ⟨fun hu => absurd hu (h u).1, fun hu => absurd hu (h u).2⟩

-- an input without a deviating host, and one with such a host
example : ∀ t m, ParseAsks (hostParser (exEnv.nameToAscii false)) u!"http:\\\\0x7f.1/" none .utf8 t m → ¬ OddHost exEnv t m := by
  intro t m ha
  have hm := Spec.asks_asked (n := 100) (l := [(u!"0x7f.1", false)]) ha (by decide +kernel)
  simp only [List.mem_singleton, Prod.mk.injEq] at hm
  obtain ⟨rfl, rfl⟩ := hm
  rw [← C66_host_exact exEnv (.inr (by decide)) exEnv_del _ (by unfold IsScalarStr Spec.Surrogate; decide) _ (.inl (by decide))]
  intro h
  exact h (by decide +kernel)
example : OddHost exEnv u!"1.1_0" false ∧ OddHost exEnv u!"[:::1]" true :=
  ⟨(C66_host_exact exEnv (.inr (by decide)) exEnv_del _ (by unfold IsScalarStr Spec.Surrogate; decide) _ (.inl (by decide))).1
      (by decide +kernel),
    (C66_host_exact exEnv (.inr (by decide)) exEnv_del _ (by unfold IsScalarStr Spec.Surrogate; decide) _ (.inl (by decide))).1
      (by decide +kernel)⟩

end Urlstd.Props
