/-
Lemmas on host parsing.
-/
import Verif.Lemmas.IPv6c
import Verif.Lemmas.Percent
import Verif.Spec.Idna

namespace Urlstd

open Spec (IsV6 IsStr)

/-! ### Characters of percent-encoded text -/

theorem combine_mem_ascii {s : Str} {c : Nat} (hc : c < 128) (h : c ∈ Spec.combineSurrogates s) : c ∈ s := by
  fun_induction Spec.combineSurrogates s with
  | case1 => simp at h
  | case2 a ha => simp at h; omega
  | case3 a ha => exact h
  | case4 a b rest hab ih =>
    rcases List.mem_cons.1 h with h | h
    · omega
    · have := ih h; simp [this]
  | case5 a b rest hab ha ih =>
    rcases List.mem_cons.1 h with h | h
    · omega
    · have := ih h; exact List.mem_cons_of_mem _ this
  | case6 a b rest hab ha ih =>
    rcases List.mem_cons.1 h with h | h
    · subst h; simp
    · have := ih h; exact List.mem_cons_of_mem _ this

theorem utf8Encode_mem_ascii {s : Str} (hs : IsStr s) {b : Nat} (hb : b < 128) (h : b ∈ utf8Encode s) :
    b ∈ s := by
  rw [utf8Encode, toScalar_eq_combine s hs] at h
  simp only [utf8EncodeStrict, List.mem_flatMap] at h
  obtain ⟨c, hc, h⟩ := h
  by_cases h80 : c < 0x80
  · rw [utf8EncodeCP_ascii h80] at h
    simp at h; subst h; exact combine_mem_ascii hb hc
  · have := utf8EncodeCP_nonascii h80 _ h
    omega

/-- A character of percent-encoded text is a kept character of the input, '%' or a hex digit. -/
theorem mem_percentEncoded {s : Str} (hs : IsStr s) {safe : Nat → Bool} {x : Nat}
    (hx : x ∈ utf8PercentEncode s safe) :
    (x ∈ s ∧ quoteSafe safe x = true) ∨ x = 37 ∨ (alwaysSafe x = true ∧ isHex x = true) := by
  rw [utf8PercentEncode_false, List.mem_flatMap] at hx
  obtain ⟨b, hb, hx⟩ := hx
  rcases mem_quoter (utf8Encode_bytes s hs b hb) hx with h | h | h
  · obtain ⟨rfl, h⟩ := h
    exact .inl ⟨utf8Encode_mem_ascii hs (quoteSafe_ascii h) hb, h⟩
  · exact .inr (.inl h)
  · exact .inr (.inr h)

theorem utf8EncodeCP_ne_nil (c : Nat) : utf8EncodeCP c ≠ [] := by
  unfold utf8EncodeCP; split <;> (try split) <;> (try split) <;> simp

theorem utf8Encode_ne_nil {s : Str} (hs : IsStr s) (h : s ≠ []) : utf8Encode s ≠ [] := by
  rw [utf8Encode, toScalar_eq_combine s hs]
  have : Spec.combineSurrogates s ≠ [] := by
    fun_cases Spec.combineSurrogates s
    · exact absurd rfl h
    all_goals simp
  cases hc : Spec.combineSurrogates s with
  | nil => exact absurd hc this
  | cons c cs =>
    rw [utf8EncodeStrict, List.flatMap_cons]
    intro he
    exact utf8EncodeCP_ne_nil c (List.append_eq_nil_iff.1 he).1

theorem quoter_ne_nil (safe : Nat → Bool) (b : Nat) : quoter safe b ≠ [] := by
  unfold quoter; split <;> simp [pctByte]

theorem utf8PercentEncode_ne_nil {s : Str} (hs : IsStr s) (h : s ≠ []) (safe : Nat → Bool) :
    utf8PercentEncode s safe ≠ [] := by
  rw [utf8PercentEncode_false]
  cases hc : utf8Encode s with
  | nil => exact absurd hc (utf8Encode_ne_nil hs h)
  | cons b bs =>
    rw [List.flatMap_cons]
    intro he
    exact quoter_ne_nil safe b (List.append_eq_nil_iff.1 he).1

/-- text whose characters are all kept is left alone -/
theorem utf8PercentEncode_safe {s : Str} {safe : Nat → Bool} (h : ∀ c ∈ s, quoteSafe safe c = true) :
    utf8PercentEncode s safe = s := by
  rw [utf8PercentEncode_false, utf8Encode_ascii (fun c hc => quoteSafe_ascii (h c hc)),
    flatMap_quoter_safe safe s h]

/-! ### Percent-encoding that keeps '%' does not change what the text decodes to -/

theorem quoter_cases (safe : Nat → Bool) (b : Nat) :
    (quoteSafe safe b = true ∧ quoter safe b = [b]) ∨
    (quoteSafe safe b = false ∧ ∃ x y, quoter safe b = [37, x, y]) := by
  unfold quoter
  by_cases h : quoteSafe safe b = true
  · exact .inl ⟨h, by rw [if_pos h]⟩
  · exact .inr ⟨by simpa using h, by rw [if_neg h]; exact ⟨_, _, rfl⟩⟩

/-- a '%' not followed by two hex digits stands for itself -/
theorem specPD_percent {X : Bytes} (h : ∀ a b rest, X = a :: b :: rest → ¬ (isHex a = true ∧ isHex b = true)) :
    Spec.percentDecode (37 :: X) = 37 :: Spec.percentDecode X := by
  match X with
  | [] => simp [Spec.percentDecode]
  | [a] => simp [Spec.percentDecode]
  | a :: b :: rest =>
    have h := h a b rest rfl
    rw [← isHex_spec] at h
    exact (show _ = if Spec.isHex a = true ∧ Spec.isHex b = true then _ else _ from by
      rw [Spec.percentDecode]).trans (if_neg h)

theorem alwaysSafe_hex {c : Nat} (h : isHex c = true) : alwaysSafe c = true := by
  rw [isHex_iff] at h
  simp only [alwaysSafe, isAlnum, isAlpha, isDigit, Bool.or_eq_true, Bool.and_eq_true, decide_eq_true_eq]
  omega

theorem quoter_hex (safe : Nat → Bool) {c : Nat} (h : isHex c = true) : quoter safe c = [c] := by
  unfold quoter quoteSafe; rw [if_pos (by rw [alwaysSafe_hex h]; rfl)]

theorem not_hex_percent : isHex 37 = false := by decide

theorem specPD_quoted_percent {safe : Nat → Bool} {bs : Bytes}
    (h : ∀ a b rest, bs = a :: b :: rest → ¬ (isHex a = true ∧ isHex b = true)) :
    Spec.percentDecode (37 :: bs.flatMap (quoter safe)) =
      37 :: Spec.percentDecode (bs.flatMap (quoter safe)) := by
  apply specPD_percent
  intro a b rest he hh
  match bs with
  | [] => simp at he
  | x :: bs =>
    rw [List.flatMap_cons] at he
    rcases quoter_cases safe x with ⟨_, hx⟩ | ⟨_, p, q, hx⟩
    · rw [hx] at he
      simp only [List.cons_append, List.nil_append, List.cons.injEq] at he
      obtain ⟨rfl, he⟩ := he
      match bs with
      | [] => simp at he
      | y :: bs =>
        rw [List.flatMap_cons] at he
        rcases quoter_cases safe y with ⟨_, hy⟩ | ⟨_, p, q, hy⟩
        · rw [hy] at he
          simp only [List.cons_append, List.nil_append, List.cons.injEq] at he
          obtain ⟨rfl, he⟩ := he
          exact h x y bs rfl hh
        · rw [hy] at he
          simp only [List.cons_append, List.cons.injEq] at he
          rw [← he.1, not_hex_percent] at hh
          cases hh.2
    · rw [hx] at he
      simp only [List.cons_append, List.cons.injEq] at he
      rw [← he.1, not_hex_percent] at hh
      cases hh.1

theorem specPD_quoted {safe : Nat → Bool} (hp : safe 37 = true) {bs : Bytes} (hb : IsBytes bs) :
    Spec.percentDecode (bs.flatMap (quoter safe)) = Spec.percentDecode bs := by
  have q37 : quoter safe 37 = [37] := by
    unfold quoter quoteSafe; rw [if_pos (by simp [hp])]
  have cons : ∀ x rest, x < 256 → x ≠ 37 → Spec.percentDecode (rest.flatMap (quoter safe)) = Spec.percentDecode rest →
      Spec.percentDecode ((x :: rest).flatMap (quoter safe)) = Spec.percentDecode (x :: rest) := by
    intro x rest hx h37 ih
    rw [List.flatMap_cons]
    rcases quoter_cases safe x with ⟨_, h⟩ | ⟨hs, _⟩
    · rw [h, List.cons_append, List.nil_append, specPD_other h37, specPD_other h37, ih]
    · have : quoter safe x = pctByte x := by unfold quoter; rw [if_neg (by simp [hs])]
      rw [this, specPD_pctByte hx, specPD_other h37, ih]
  fun_induction Spec.percentDecode bs with
  | case1 a b rest h ih =>
    rw [List.flatMap_cons, List.flatMap_cons, List.flatMap_cons, q37, quoter_hex _ h.1, quoter_hex _ h.2]
    simp only [List.cons_append, List.nil_append]
    rw [specPD_triplet h.1 h.2, ih (fun x hx => hb x (by simp [hx])), hexVal_spec]
  | case2 a b rest h ih =>
    rw [List.flatMap_cons, q37, List.cons_append, List.nil_append, specPD_quoted_percent,
      ih (fun x hx => hb x (List.mem_cons_of_mem _ hx))]
    intro x y t he
    simp only [List.cons.injEq] at he
    obtain ⟨rfl, rfl, rfl⟩ := he
    exact h
  | case3 x rest hx ih =>
    have ih := ih (fun x hx => hb x (by simp [hx]))
    by_cases h37 : x = 37
    · subst h37
      rw [List.flatMap_cons, q37, List.cons_append, List.nil_append, specPD_quoted_percent, ih]
      intro a b t he
      exact absurd he (hx a b t rfl)
    · rw [cons x rest (hb x (by simp)) h37 ih, specPD_other h37]
  | case4 => rfl

/-! ### What host parsing returns -/

/-- a domain returned by host parsing -/
structure DomainWF (env : Env) (s : Str) : Prop where
  ne : s ≠ []
  chars : ∀ c ∈ s, c < 128 ∧ isForbiddenDomain c = false
  notNum : isEndsInANumber env s = false
  fixed : domainToAscii env s false = .ok s

/-- an opaque host -/
def OpaqueHostWF (s : Str) : Prop := s ≠ [] ∧ ∀ c ∈ s, 0x20 < c ∧ c < 0x7F ∧ isForbiddenHost c = false

/-- a host returned by `Host.parse(_, m)` -/
def HostWF (env : Env) (m : Bool) : Host → Prop
  | .str s => s = [] ∨ (m = true ∧ OpaqueHostWF s) ∨ (m = false ∧ DomainWF env s)
  | .ipv4 _ => m = false
  | .ipv6 a => IsV6 a

theorem isForbiddenHost_bracket : isForbiddenHost c!"[" = true := by decide

theorem parseOpaqueHost_ok {host : Str} (hs : IsStr host) (hne : host ≠ []) {s : Str} {log : Log}
    (h : parseOpaqueHost host = ⟨.ok s, log⟩) :
    (∀ c ∈ host, isForbiddenHost c = false) ∧ s = utf8PercentEncode host safeC0 ∧ OpaqueHostWF s := by
  unfold parseOpaqueHost at h
  by_cases hf : host.any isForbiddenHost = true
  · rw [if_pos hf] at h; simp [Res.err] at h
  · rw [if_neg hf] at h
    simp only [Res.ok, Res.mk.injEq, Except.ok.injEq] at h
    have hf' : ∀ c ∈ host, isForbiddenHost c = false := by
      simpa only [Bool.not_eq_true, List.any_eq_false] using hf
    obtain ⟨rfl, _⟩ := h
    refine ⟨hf', rfl, utf8PercentEncode_ne_nil hs hne _, ?_⟩
    intro c hc
    rcases mem_percentEncoded hs hc with ⟨h1, h2⟩ | h | ⟨h1, h2⟩
    · have hfc := hf' c h1
      refine ⟨?_, ?_, hfc⟩
      · have h20 : c ≠ 0x20 := by rintro rfl; exact absurd hfc (by decide)
        simp only [quoteSafe, alwaysSafe, safeC0, isAlnum, isAlpha, isDigit, Bool.or_eq_true, Bool.and_eq_true,
          decide_eq_true_eq, List.contains_iff_mem, List.mem_cons, List.not_mem_nil, or_false] at h2
        omega
      · simp only [quoteSafe, alwaysSafe, safeC0, isAlnum, isAlpha, isDigit, Bool.or_eq_true, Bool.and_eq_true,
          decide_eq_true_eq, List.contains_iff_mem, List.mem_cons, List.not_mem_nil, or_false] at h2
        omega
    · subst h; decide
    · rw [isHex_iff] at h2
      refine ⟨by omega, by omega, ?_⟩
      unfold isForbiddenHost
      simp only [List.contains_eq_mem, List.mem_cons, List.not_mem_nil, or_false, decide_eq_false_iff_not]
      omega

theorem hostParse_cases {env : Env} {host : Str} {m : Bool} {h : Host} {log : Log}
    (hp : hostParse env host m = ⟨.ok h, log⟩) :
    (host = [] ∧ h = .str []) ∨
    (∃ t a, host = 91 :: t ∧ t.getLastD 0 = 93 ∧ t ≠ [] ∧ ipv6Parse env t.dropLast = ⟨.ok a, log⟩ ∧ h = .ipv6 a) ∨
    (∃ s, host ≠ [] ∧ host.head? ≠ some 91 ∧ m = true ∧ parseOpaqueHost host = ⟨.ok s, log⟩ ∧ h = .str s) ∨
    (∃ ascii log', host ≠ [] ∧ host.head? ≠ some 91 ∧ m = false ∧
      domainToAscii env (utf8Decode (stringPercentDecode host)) false = ⟨.ok ascii, log'⟩ ∧
      (∀ c ∈ ascii, isForbiddenDomain c = false) ∧
      ((isEndsInANumber env ascii = true ∧ ∃ n log'', ipv4Parse env ascii = ⟨.ok n, log''⟩ ∧ h = .ipv4 n) ∨
       (isEndsInANumber env ascii = false ∧ h = .str ascii))) := by
  unfold hostParse at hp
  cases host with
  | nil => simp [Res.ok] at hp; exact .inl ⟨rfl, hp.1.symm⟩
  | cons h0 t =>
    right
    dsimp only at hp
    by_cases h91 : h0 = 91
    · left
      subst h91
      rw [if_pos rfl] at hp
      by_cases h93 : (91 :: t).getLastD 0 ≠ 93
      · rw [if_pos h93] at hp; simp [Res.err] at hp
      · rw [if_neg h93] at hp
        have htne : t ≠ [] := by
          rintro rfl; exact h93 (by decide)
        have ht : t.getLastD 0 = 93 := by
          rw [Decidable.not_not] at h93
          rw [getLastD_eq _ _ (by simp), List.getLast_cons htne, ← getLastD_eq _ 0 htne] at h93
          exact h93
        rcases hr : ipv6Parse env t.dropLast with ⟨r, l⟩
        rw [hr] at hp
        cases r with
        | error e => simp [Res.err] at hp
        | ok a =>
          simp only [Res.ok, Res.mk.injEq, Except.ok.injEq] at hp
          exact ⟨t, a, rfl, ht, htne, by rw [hr, hp.2], hp.1.symm⟩
    · right
      rw [if_neg h91] at hp
      have hh : (h0 :: t).head? ≠ some 91 := by simp [h91]
      cases m with
      | true =>
        left
        simp only [if_true] at hp
        rcases hr : parseOpaqueHost (h0 :: t) with ⟨r, l⟩
        rw [hr] at hp
        cases r with
        | error e => simp [Res.err] at hp
        | ok s =>
          simp only [Res.ok, Res.mk.injEq, Except.ok.injEq] at hp
          exact ⟨s, by simp, hh, rfl, by rw [hp.2], hp.1.symm⟩
      | false =>
        right
        simp only [Bool.false_eq_true, if_false] at hp
        rcases hr : domainToAscii env (utf8Decode (stringPercentDecode (h0 :: t))) false with ⟨r, l⟩
        rw [hr] at hp
        cases r with
        | error e => simp [Res.err] at hp
        | ok ascii =>
          simp only at hp
          by_cases hf : ascii.any isForbiddenDomain = true
          · rw [if_pos hf] at hp; simp [Res.err] at hp
          rw [if_neg hf] at hp
          have hf' : ∀ c ∈ ascii, isForbiddenDomain c = false := by
            simpa only [Bool.not_eq_true, List.any_eq_false] using hf
          refine ⟨ascii, l, by simp, hh, rfl, rfl, hf', ?_⟩
          by_cases hn : isEndsInANumber env ascii = true
          · rw [if_pos hn] at hp
            rcases h4 : ipv4Parse env ascii with ⟨r4, l4⟩
            rw [h4] at hp
            cases r4 with
            | error e => simp [Res.err] at hp
            | ok n =>
              simp only [Res.ok, Res.mk.injEq, Except.ok.injEq] at hp
              exact .inl ⟨hn, n, l4, rfl, hp.1.symm⟩
          · rw [if_neg hn] at hp
            simp only [Res.ok, Res.mk.injEq, Except.ok.injEq] at hp
            exact .inr ⟨by simpa using hn, hp.1.symm⟩

theorem domainToAscii_ne_nil {env : Env} {d a : Str} {b : Bool} {log : Log}
    (h : domainToAscii env d b = ⟨.ok a, log⟩) : a ≠ [] := by
  unfold domainToAscii at h
  split at h
  · simp [Res.err] at h
  · rename_i dest errors _
    dsimp only at h
    generalize maskErrors errors _ = k at h
    split at h
    · simp [Res.err] at h
    · split at h
      · simp [Res.err] at h
      · rename_i hne
        simp only [Res.ok, Res.mk.injEq, Except.ok.injEq] at h
        rw [← h.1]; simpa using hne

theorem hostParse_wf {env : Env} (hi : IdnaOK env) {host : Str} (hs : IsStr host) {m : Bool} {h : Host} {log : Log}
    (hp : hostParse env host m = ⟨.ok h, log⟩) : HostWF env m h := by
  rcases hostParse_cases hp with ⟨_, rfl⟩ | ⟨t, a, _, _, _, h6, rfl⟩ | ⟨s, hne, _, rfl, ho, rfl⟩ |
    ⟨ascii, l, hne, hb, rfl, hd, hf, ⟨_, n, l', h4, rfl⟩ | ⟨hn, rfl⟩⟩
  · exact .inl rfl
  · exact ipv6Parse_length h6
  · exact .inr (.inl ⟨rfl, (parseOpaqueHost_ok hs hne ho).2.2⟩)
  · rfl
  · exact .inr (.inr ⟨rfl, domainToAscii_ne_nil hd, fun c hc => ⟨hi.ascii _ _ _ hd c hc, hf c hc⟩, hn,
      hi.fixed _ _ _ hd⟩)

/-! ### Parsing a serialized host -/

/-- the host a serialized host is read as: IPv4 numbers are cut to 32 bits -/
def Host.canon : Host → Host
  | .ipv4 n => .ipv4 (n % 2 ^ 32)
  | h => h

theorem stringPercentDecode_plain {s : Str} (h : ∀ c ∈ s, c < 128 ∧ c ≠ 37) : stringPercentDecode s = s := by
  rw [stringPercentDecode, utf8Encode_ascii (fun c hc => (h c hc).1), percentDecode_eq]
  induction s with
  | nil => rfl
  | cons c cs ih =>
    rw [specPD_other (h c (by simp)).2, ih (fun x hx => h x (by simp [hx]))]

theorem decode_plain {s : Str} (h : ∀ c ∈ s, c < 128 ∧ c ≠ 37) :
    utf8Decode (stringPercentDecode s) = s := by
  rw [stringPercentDecode_plain h, utf8Decode_ascii (fun c hc => (h c hc).1)]

theorem isForbiddenDomain_ne {c x : Nat} (hx : isForbiddenDomain x = true) (h : isForbiddenDomain c = false) :
    c ≠ x := by rintro rfl; rw [hx] at h; cases h

theorem hostParse_domain {env : Env} {s : Str} (h : DomainWF env s) :
    hostParse env s false = .ok (.str s) := by
  have hpl : ∀ c ∈ s, c < 128 ∧ c ≠ 37 := fun c hc =>
    ⟨(h.chars c hc).1, isForbiddenDomain_ne (by decide) (h.chars c hc).2⟩
  unfold hostParse
  cases s with
  | nil => exact absurd rfl h.ne
  | cons c cs =>
    have hc91 : c ≠ 91 := isForbiddenDomain_ne (by decide) (h.chars c (by simp)).2
    dsimp only
    rw [if_neg hc91, if_neg (by simp), decode_plain hpl, h.fixed]
    have hf : ¬ (c :: cs).any isForbiddenDomain = true := by
      simp only [Bool.not_eq_true, List.any_eq_false]
      exact fun x hx => by simp [(h.chars x hx).2]
    simp only [Res.ok]
    rw [if_neg hf, if_neg (by simp [h.notNum])]

theorem ipv4Serialize_digits (n : Nat) : ∀ c ∈ ipv4Serialize n, isDigit c = true ∨ c = c!"." := by
  intro c hc
  rw [ipv4Serialize_eq] at hc
  simp only [List.mem_append, List.mem_singleton] at hc
  rcases hc with (((((hc | hc) | hc) | hc) | hc) | hc) | hc
  all_goals first
    | exact .inl (natDec_digits _ c hc)
    | exact .inr hc

theorem ipv4Serialize_ne_nil (n : Nat) : ipv4Serialize n ≠ [] := by
  rw [ipv4Serialize_eq]; simp

theorem ipv4Serialize_mod (n : Nat) : ipv4Serialize (n % 2 ^ 32) = ipv4Serialize n := by
  rw [ipv4Serialize_eq, ipv4Serialize_eq]
  have h1 : n % 2 ^ 32 / 2 ^ 24 % 256 = n / 2 ^ 24 % 256 := by omega
  have h2 : n % 2 ^ 32 / 2 ^ 16 % 256 = n / 2 ^ 16 % 256 := by omega
  have h3 : n % 2 ^ 32 / 2 ^ 8 % 256 = n / 2 ^ 8 % 256 := by omega
  have h4 : n % 2 ^ 32 % 256 = n % 256 := by omega
  rw [h1, h2, h3, h4]

theorem hostParse_ipv4 {env : Env} (he : EnvOK env) (hi : IdnaOK env) (n : Nat) :
    hostParse env (ipv4Serialize n) false = .ok (.ipv4 (n % 2 ^ 32)) := by
  have hch := ipv4Serialize_digits n
  have hpl : ∀ c ∈ ipv4Serialize n, c < 128 ∧ c ≠ 37 ∧ c ≠ 91 ∧ isForbiddenDomain c = false := by
    intro c hc
    rcases hch c hc with h | h
    · rw [isDigit_iff] at h
      refine ⟨by omega, by omega, by omega, ?_⟩
      unfold isForbiddenDomain isForbiddenHost isC0
      simp only [List.contains_eq_mem, List.mem_cons, List.not_mem_nil, or_false, Bool.or_eq_false_iff,
        decide_eq_false_iff_not, beq_eq_false_iff_ne]
      omega
    · subst h; decide
  have hpd := decode_plain (s := ipv4Serialize n) (fun c hc => ⟨(hpl c hc).1, (hpl c hc).2.1⟩)
  have hdom := hi.digits _ (ipv4Serialize_ne_nil n) hch
  have hnum := isEndsInANumber_serialize env n
  have hparse := ipv4Parse_serialize env he n
  have hf : ¬ (ipv4Serialize n).any isForbiddenDomain = true := by
    simp only [Bool.not_eq_true, List.any_eq_false]
    exact fun x hx => by simp [(hpl x hx).2.2.2]
  have hne := ipv4Serialize_ne_nil n
  generalize ipv4Serialize n = s at *
  unfold hostParse
  cases s with
  | nil => exact absurd rfl hne
  | cons c cs =>
    have hc91 : c ≠ 91 := (hpl c (by simp)).2.2.1
    dsimp only
    rw [if_neg hc91, if_neg (by simp), hpd, hdom]
    simp only [Res.ok]
    rw [if_neg hf, if_pos hnum, hparse]
    rfl

theorem hostParse_ipv6 {env : Env} {a : List Nat} (h : IsV6 a) (m : Bool) :
    hostParse env (hostSerialize (.ipv6 a)) m = .ok (.ipv6 a) := by
  have e : hostSerialize (.ipv6 a) = 91 :: (ipv6Serialize a ++ [93]) := by
    simp [hostSerialize]
  rw [e]
  unfold hostParse
  dsimp only
  rw [if_pos rfl, if_neg]
  · rw [List.dropLast_concat, ipv6_round_trip env h]; rfl
  · rw [getLastD_eq _ _ (by simp), List.getLast_cons (by simp)]; simp

theorem hostParse_opaque {env : Env} {s : Str} (h : OpaqueHostWF s) :
    (hostParse env s true).res = .ok (.str s) := by
  obtain ⟨hne, hc⟩ := h
  have hq : ∀ c ∈ s, quoteSafe safeC0 c = true := by
    intro c hcc
    have := hc c hcc
    simp only [quoteSafe, safeC0, Bool.or_eq_true, Bool.and_eq_true, decide_eq_true_eq]
    right; omega
  have hf : ¬ s.any isForbiddenHost = true := by
    simp only [Bool.not_eq_true, List.any_eq_false]
    exact fun x hx => by simp [(hc x hx).2.2]
  unfold hostParse
  cases s with
  | nil => exact absurd rfl hne
  | cons c cs =>
    have hc91 : c ≠ 91 := by
      rintro rfl; exact absurd (hc 91 (by simp)).2.2 (by decide)
    dsimp only
    rw [if_neg hc91, if_pos rfl]
    unfold parseOpaqueHost
    rw [if_neg hf, utf8PercentEncode_safe hq]
    rfl

theorem hostParse_serialize {env : Env} (he : EnvOK env) (hi : IdnaOK env) {m : Bool} {h : Host}
    (hw : HostWF env m h) : (hostParse env (hostSerialize h) m).res = .ok h.canon := by
  cases h with
  | str s =>
    rcases hw with rfl | ⟨rfl, h⟩ | ⟨rfl, h⟩
    · rfl
    · exact hostParse_opaque h
    · show (hostParse env s false).res = _
      rw [hostParse_domain h]; rfl
  | ipv4 n =>
    have : m = false := hw
    subst this
    show (hostParse env (ipv4Serialize n) false).res = _
    rw [hostParse_ipv4 he hi n]; rfl
  | ipv6 a => rw [hostParse_ipv6 hw m]; rfl

theorem hostSerialize_canon (h : Host) : hostSerialize h.canon = hostSerialize h := by
  cases h with
  | str s => rfl
  | ipv4 n => exact ipv4Serialize_mod n
  | ipv6 a => rfl

/-! ### Forbidden code points -/

theorem isForbiddenHost_iff (c : Nat) : isForbiddenHost c = true ↔ Spec.ForbiddenHostCP c := by
  unfold isForbiddenHost Spec.ForbiddenHostCP
  simp only [List.contains_eq_mem, List.mem_cons, List.not_mem_nil, or_false, decide_eq_true_eq]

theorem isForbiddenDomain_iff (c : Nat) : isForbiddenDomain c = true ↔ Spec.ForbiddenDomainCP c := by
  unfold isForbiddenDomain Spec.ForbiddenDomainCP
  simp only [Bool.or_eq_true, isForbiddenHost_iff, isC0, decide_eq_true_eq, beq_iff_eq, or_assoc]
  have : c < 32 ↔ c ≤ 31 := by omega
  rw [this]

/-! ### Ends in a number -/

theorem ends_of_spec (env : Env) {s : Str} (h : Spec.endsInANumber s = true) : isEndsInANumber env s = true := by
  rw [isEndsInANumber_eq]
  unfold Spec.endsInANumber at h
  rw [← partsOf_eq] at h
  have hne := partsOf_ne_nil s
  rw [List.getLast?_eq_some_getLast hne] at h
  rw [getLastD_eq _ _ hne]
  generalize (partsOf s).getLast hne = last at h
  simp only [decide_eq_true_eq] at h
  simp only [Bool.or_eq_true, Bool.and_eq_true, Bool.not_eq_true', List.isEmpty_eq_false_iff,
    List.all_eq_true, decide_eq_true_eq]
  rcases h with h | h
  · exact .inl h
  · cases hv : Spec.ipv4Number last with
    | none => rw [hv] at h; cases h
    | some v =>
      unfold Spec.ipv4Number at hv
      split at hv
      · cases hv
      · rename_i c rest
        split at hv
        · rename_i hx
          right
          have hnum : IsNumeral 16 rest := by
            by_cases hn : IsNumeral 16 rest
            · exact hn
            · rw [radixValue_none (by omega) hn] at hv; cases hv
          unfold parseIPv4Number
          have hx' : ((48 : Nat) == 48 && (c == 120 || c == 88)) = true := by
            rcases hx with rfl | rfl <;> rfl
          simp only
          rw [if_pos hx']
          by_cases hr : rest = []
          · rw [if_pos (by simp [hr])]; exact Int.le_refl _
          · rw [if_neg (by simpa using hr), pyInt_numeral env (by omega) hnum hr (by omega)]
            exact Int.natCast_nonneg _
        · left
          have hnum : IsNumeral 8 (c :: rest) := by
            by_cases hn : IsNumeral 8 (c :: rest)
            · exact hn
            · rw [radixValue_none (by omega) hn] at hv; cases hv
          refine ⟨by simp, ?_⟩
          intro x hx
          rcases List.mem_cons.1 hx with rfl | hx
          · rfl
          · have := digitValue_lt8.1 (hnum x hx)
            rw [isDigit_iff]; omega
      · left
        have hnum : IsNumeral 10 last := by
          by_cases hn : IsNumeral 10 last
          · exact hn
          · rw [radixValue_none (by omega) hn] at hv; cases hv
        refine ⟨by assumption, fun x hx => digitValue_lt10.1 (hnum x hx)⟩

end Urlstd
