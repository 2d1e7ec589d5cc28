/-
Which IPv6 texts the code and the standard treat differently.
-/
import Verif.Lemmas.IPv6c

namespace Urlstd

/-! ### The standard: no dot before a colon -/

theorem v4Digits_rest {value : Option Nat} {s : Str} {w : Option Nat} {rest : Str}
    (h : Spec.v4Digits value s = some (w, rest)) : ∀ c ∈ s, isDigit c = true ∨ c ∈ rest := by
  induction s generalizing value with
  | nil => intro c hc; cases hc
  | cons x xs ih =>
    rw [v4Digits_cons] at h
    by_cases hx : isDigit x = true
    · rw [if_pos hx] at h
      cases hs : Spec.v4Step value (x - 48) with
      | none => rw [hs] at h; cases h
      | some v =>
        rw [hs] at h
        dsimp only at h
        by_cases hv : v > 255
        · rw [if_pos hv] at h; cases h
        · rw [if_neg hv] at h
          intro c hc
          rcases List.mem_cons.1 hc with rfl | hc
          · exact .inl hx
          · exact ih h c hc
    · rw [if_neg hx] at h
      injection h with h
      injection h with _ h
      intro c hc
      exact .inr (h ▸ hc)

theorem v4Loop_dotted : ∀ (k : Nat) (addr : List Nat) (i : Nat) (s : Str) (r : List Nat × Nat),
    Spec.v4Loop k addr i s = some r → ∀ c ∈ s, isDigit c = true ∨ c = 46 := by
  intro k
  induction k with
  | zero =>
    intro addr i s r h c hc
    rw [Spec.v4Loop] at h
    split at h
    · next hs => subst hs; cases hc
    · cases h
  | succ k ih =>
    intro addr i s r h
    rw [v4Loop_succ] at h
    split at h
    · cases h
    · cases h
    · next x t hs =>
      have hsub : ∀ c ∈ s, c = 46 ∨ c ∈ x :: t := by
        intro c hc
        split at hs
        · injection hs with hs; subst hs; exact .inr hc
        · split at hs
          · injection hs with hs
            subst hs
            rcases List.mem_cons.1 hc with h | h
            · exact .inl h
            · exact .inr h
          · cases hs
      split at h
      · split at h
        · next v rest hv =>
          intro c hc
          rcases hsub c hc with h1 | h1
          · exact .inr h1
          · rcases v4Digits_rest hv c h1 with h2 | h2
            · exact .inl h2
            · exact ih _ _ _ _ h c h2
        · cases h
      · cases h

/-- one step of the standard's loop that succeeds, without the numbers -/
theorem v6Loop_cases {k : Nat} {addr : List Nat} {cmp : Option Nat} {s : Str} {r : List Nat × Nat × Option Nat}
    (h : Spec.v6Loop k addr cmp s = some r) :
    s = [] ∨ (58 ∉ s ∧ s ≠ []) ∨ (∃ j cs, k = j + 1 ∧ s = 58 :: cs ∧ cmp = none ∧ Spec.v6Loop j addr (some (8 - j)) cs = some r) ∨
    ∃ j q rest v, k = j + 1 ∧ s = q ++ 58 :: rest ∧ (∀ c ∈ q, isHex c = true) ∧ 0 < q.length ∧ q.length ≤ 4 ∧ rest ≠ [] ∧
      Spec.v6Loop j (addr.set (8 - (j + 1)) v) cmp rest = some r := by
  cases s with
  | nil => exact .inl rfl
  | cons c cs =>
    right
    cases k with
    | zero => cases h
    | succ j =>
      rw [Spec.v6Loop] at h
      by_cases hc : c = 58
      · subst hc
        rw [if_pos rfl] at h
        cases hcmp : cmp with
        | some x => rw [hcmp] at h; cases h
        | none =>
          rw [hcmp] at h
          exact .inr (.inl ⟨j, cs, rfl, rfl, rfl, h⟩)
      · rw [if_neg hc] at h
        obtain ⟨q, s', h1, h2, h3, -, h5⟩ := v6Hex_spec 4 0 0 (c :: cs)
        have hq58 : 58 ∉ q := fun hm => absurd (h2 58 hm) (by decide)
        rw [h5] at h
        have hne : c :: cs ≠ [] := by simp
        split at h
        · split at h
          · cases h
          · split at h
            · cases h
            · obtain ⟨r', hr, -⟩ := Option.map_eq_some_iff.1 h
              refine .inl ⟨fun hm => ?_, hne⟩
              rcases v4Loop_dotted _ _ _ _ _ hr 58 hm with h | h
              · exact absurd h (by decide)
              · cases h
        · next heq =>
          injection heq with _ heq
          injection heq with _ heq
          rw [heq, List.append_nil] at h1
          exact .inl ⟨by rw [h1]; exact hq58, hne⟩
        · next rest heq =>
          injection heq with _ heq
          injection heq with _ heq
          split at h
          · cases h
          · next hr =>
            rw [heq] at h1
            refine .inr (.inr ⟨j, q, rest, _, rfl, h1, h2, ?_, h3, hr, h⟩)
            cases q with
            | nil => injection h1 with h1 _; exact absurd h1 hc
            | cons => simp
        · cases h

theorem v6Loop_noDotColon : ∀ (k : Nat) (addr : List Nat) (cmp : Option Nat) (s : Str) (r : List Nat × Nat × Option Nat),
    Spec.v6Loop k addr cmp s = some r → NoDotColon s := by
  intro k
  induction k with
  | zero =>
    intro addr cmp s r h
    cases s with
    | nil => intro x y hxy; simp at hxy
    | cons => cases h
  | succ k ih =>
    intro addr cmp s r h
    rcases v6Loop_cases h with rfl | ⟨h1, -⟩ | ⟨j, cs, hj, rfl, -, h1⟩ | ⟨j, q, rest, v, hj, rfl, hq, -, -, -, h1⟩
    · intro x y hxy; simp at hxy
    · rintro x y rfl hy
      exact h1 (by simp [hy])
    · cases hj
      intro x y hxy
      cases x with
      | nil => injection hxy with hxy _; cases hxy
      | cons a x => injection hxy with _ hxy; exact ih _ _ _ _ h1 x y hxy
    · cases hj
      intro x y hxy
      rcases List.append_eq_append_iff.1 hxy with ⟨w, rfl, hw⟩ | ⟨w, rfl, hw⟩
      · cases w with
        | nil => injection hw with hw _; cases hw
        | cons a w => injection hw with _ hw; exact ih _ _ _ _ h1 w y hw
      · cases w with
        | nil => injection hw with hw _; cases hw
        | cons a w =>
          injection hw with hw _
          subst hw
          exact absurd (hq 46 (by simp)) (by decide)

/-! ### Texts that end in "::" -/

/-- what is left of a text that ends in "::" when at least the first of the two colons is to come, or just the second -/
def EndsCC (b : Bool) (s : Str) : Prop := (∃ t, s = t ++ u!"::") ∨ (b = true ∧ s = u!":")

theorem EndsCC.other {b : Bool} {c : Nat} {cs : Str} (h : EndsCC b (c :: cs)) (hc : c ≠ 58) (b' : Bool) : EndsCC b' cs := by
  rcases h with ⟨t, h⟩ | ⟨-, h⟩
  · cases t with
    | nil => injection h with h _; exact absurd h hc
    | cons x t => injection h with _ h; exact .inl ⟨t, h⟩
  · injection h with h _; exact absurd h hc

theorem EndsCC.colon {cs : Str} (h : EndsCC false (58 :: cs)) : EndsCC true cs := by
  rcases h with ⟨t, h⟩ | ⟨h, -⟩
  · cases t with
    | nil => injection h with _ h; exact .inr ⟨rfl, h⟩
    | cons x t => injection h with _ h; exact .inl ⟨t, h⟩
  · cases h

theorem EndsCC.colon' {b : Bool} {cs : Str} (h : EndsCC b (58 :: cs)) : cs = [] ∨ EndsCC true cs := by
  rcases h with ⟨t, h⟩ | ⟨-, h⟩
  · exact .inr (EndsCC.colon (.inl ⟨t, h⟩))
  · injection h with _ h; exact .inl h

theorem EndsCC.append {b : Bool} {q cs : Str} (hq : ∀ c ∈ q, c ≠ 58) (hne : q ≠ []) (h : EndsCC b (q ++ cs)) : EndsCC false cs := by
  induction q generalizing b with
  | nil => exact absurd rfl hne
  | cons c q ih =>
    have h1 := EndsCC.other h (hq c (by simp)) false
    by_cases hqe : q = []
    · subst hqe; exact h1
    · exact ih (fun x hx => hq x (by simp [hx])) hqe h1

/-- the index grows with every piece -/
theorem v6Piece_ok {env : Env} {st st' : V6} {b : Bool} {log : Log} (h : v6Piece env st b = ⟨.ok st', log⟩) :
    st'.prevColon = b ∧ st'.compress = st.compress ∧ st.pieceIndex + 1 ≤ st'.pieceIndex ∧ st'.piece = [] ∧
      st'.addr.length = st.addr.length := by
  unfold v6Piece at h
  split at h
  · next hp =>
    injection h with h _
    injection h with h
    subst h
    exact ⟨rfl, rfl, Nat.le_refl _, by simpa using hp, rfl⟩
  · split at h
    · split at h
      · cases h
      · split at h
        · cases h
        · split at h
          · injection h with h _
            injection h with h
            subst h
            exact ⟨rfl, rfl, Nat.le_refl _, rfl, by simp⟩
          · cases h
    · unfold v6IPv4 at h
      split at h
      · cases h
      · dsimp only at h
        split at h
        · cases h
        · split at h
          · cases h
          · split at h
            · cases h
            · split at h
              · split at h
                · injection h with h _
                  injection h with h
                  subst h
                  exact ⟨rfl, rfl, by dsimp only; omega, rfl, by simp⟩
                · cases h
              · cases h

theorem v6Loop_second {env : Env} (s : Str) : ∀ st : V6, st.compress.isSome = true → EndsCC st.prevColon s →
    (v6Loop env s st).val = none := by
  induction s with
  | nil => intro st _ h; rcases h with ⟨t, h⟩ | ⟨-, h⟩ <;> simp at h
  | cons c cs ih =>
    intro st hc h
    rw [v6Loop]
    split
    · rfl
    · by_cases h58 : c = 58
      · subst h58
        rw [if_neg (by simp)]
        cases hp : st.prevColon with
        | true => rw [if_pos rfl]; rfl
        | false =>
          rw [if_neg (by simp)]
          rw [hp] at h
          rcases hv : v6Piece env st true with ⟨r, log⟩
          cases r with
          | error e => rfl
          | ok st' =>
            obtain ⟨h1, h2, -⟩ := v6Piece_ok hv
            exact ih st' (by rw [h2]; exact hc) (by rw [h1]; exact h.colon)
      · rw [if_pos h58]
        exact ih _ hc (h.other h58 _)

theorem v6Loop_eighth {env : Env} (s : Str) : ∀ st : V6, EndsCC st.prevColon s → 8 ≤ st.pieceIndex + s.count 58 →
    (v6Loop env s st).val = none := by
  induction s with
  | nil => intro st h; rcases h with ⟨t, h⟩ | ⟨-, h⟩ <;> simp at h
  | cons c cs ih =>
    intro st h h8
    rw [v6Loop]
    split
    · rfl
    · by_cases h58 : c = 58
      · subst h58
        rw [List.count_cons_self] at h8
        rw [if_neg (by simp)]
        cases hp : st.prevColon with
        | true =>
          rw [if_pos rfl]
          split
          · rfl
          · rcases h.colon' with rfl | h1
            · rw [v6Loop, if_pos (by simp at h8; dsimp only; omega)]; rfl
            · exact v6Loop_second cs _ rfl h1
        | false =>
          rw [if_neg (by simp)]
          rw [hp] at h
          rcases hv : v6Piece env st true with ⟨r, log⟩
          cases r with
          | error e => rfl
          | ok st' =>
            obtain ⟨h1, -, h3, -⟩ := v6Piece_ok hv
            exact ih st' (by rw [h1]; exact h.colon) (by omega)
      · rw [if_pos h58]
        rw [List.count_cons_of_ne (by simpa using h58)] at h8
        exact ih _ (h.other h58 _) h8

theorem v6Run_none {env : Env} {s : Str} {st : V6} (h : (v6Loop env s st).val = none) : (v6Run env s st).val = none := by
  unfold v6Run
  rcases hv : v6Loop env s st with ⟨r, log⟩
  rw [hv] at h
  cases r with
  | error e => rfl
  | ok st' => cases h

/-- the code rejects a text with eight colons that ends in "::" -/
theorem ipv6Parse_eighth (env : Env) {s : Str} (h8 : s.count 58 = 8) (he : ∃ t, s = t ++ u!"::") : (ipv6Parse env s).val = none := by
  cases s with
  | nil => simp at h8
  | cons c t =>
    by_cases hc : c = 58
    · subst hc
      cases t with
      | nil => simp at h8
      | cons d u =>
        by_cases hd : d = 58
        · subst hd
          rw [ipv6Parse_colons]
          refine v6Run_none (v6Loop_second u _ rfl (.inl ?_))
          obtain ⟨t, ht⟩ := he
          match t with
          | [] => injection ht with _ ht; injection ht with _ ht; subst ht; simp at h8
          | [a] => injection ht with _ ht; injection ht with _ ht; subst ht; simp at h8
          | a :: b :: t => injection ht with _ ht; injection ht with _ ht; exact ⟨t, ht⟩
        · rw [ipv6Parse_onecolon env hd]; rfl
    · rw [ipv6Parse_nocolon env t hc]
      exact v6Run_none (v6Loop_eighth _ _ (.inl he) (by dsimp only; omega))

/-! ### The standard on such texts -/

/-- one to four hexadecimal digits -/
def HexPiece (p : Str) : Prop := 1 ≤ p.length ∧ p.length ≤ 4 ∧ ∀ c ∈ p, isHex c = true

theorem specLoop_second : ∀ (k : Nat) (addr : List Nat) (c : Nat) (s : Str), EndsCC true s → Spec.v6Loop k addr (some c) s = none := by
  intro k
  induction k with
  | zero =>
    intro addr c s h
    cases s with
    | nil => rcases h with ⟨t, h⟩ | ⟨-, h⟩ <;> simp at h
    | cons => rfl
  | succ k ih =>
    intro addr c s h
    cases hr : Spec.v6Loop (k + 1) addr (some c) s with
    | none => rfl
    | some r =>
      exfalso
      rcases v6Loop_cases hr with rfl | ⟨h1, -⟩ | ⟨j, cs, hj, rfl, hn, -⟩ | ⟨j, q, rest, v, hj, rfl, hq, hq1, -, -, h1⟩
      · rcases h with ⟨t, h⟩ | ⟨-, h⟩ <;> simp at h
      · rcases h with ⟨t, rfl⟩ | ⟨-, rfl⟩ <;> simp at h1
      · cases hn
      · cases hj
        have := (EndsCC.append (by intro c hc h; subst h; exact absurd (hq _ hc) (by decide)) (by cases q <;> simp_all) h).colon
        rw [ih _ _ _ this] at h1
        cases h1

theorem specLoop_eighth : ∀ (k : Nat) (addr : List Nat) (s : Str) (r : List Nat × Nat × Option Nat),
    Spec.v6Loop k addr none s = some r → s.count 58 = k → EndsCC true s →
    ∃ ps : List Str, ps.length + 1 = k ∧ (∀ p ∈ ps, HexPiece p) ∧ s = (ps.flatMap (· ++ u!":")) ++ u!":" := by
  intro k
  induction k with
  | zero =>
    intro addr s r h h8 he
    exfalso
    rcases he with ⟨t, rfl⟩ | ⟨-, rfl⟩ <;> simp at h8
  | succ k ih =>
    intro addr s r h h8 he
    rcases v6Loop_cases h with rfl | ⟨h1, -⟩ | ⟨j, cs, hj, rfl, hn, h1⟩ | ⟨j, q, rest, v, hj, rfl, hq, hq1, hq4, -, h1⟩
    · rcases he with ⟨t, h⟩ | ⟨-, h⟩ <;> simp at h
    · rcases he with ⟨t, rfl⟩ | ⟨-, rfl⟩ <;> simp at h1
    · cases hj
      rcases he.colon' with rfl | h2
      · refine ⟨[], ?_, by simp, by simp⟩
        simpa using h8
      · rw [specLoop_second _ _ _ _ h2] at h1; cases h1
    · cases hj
      have hq58 : ∀ c ∈ q, c ≠ 58 := by intro c hc h; subst h; exact absurd (hq _ hc) (by decide)
      have h2 := (EndsCC.append hq58 (by cases q <;> simp_all) he).colon
      have hcnt : rest.count 58 = k := by
        rw [List.count_append, List.count_cons_self, List.count_eq_zero_of_not_mem (fun h => hq58 58 h rfl)] at h8
        omega
      obtain ⟨ps, hl, hps, rfl⟩ := ih _ _ _ h1 hcnt h2
      refine ⟨q :: ps, by simp; omega, ?_, by simp⟩
      intro p hp
      rcases List.mem_cons.1 hp with rfl | hp
      · exact ⟨hq1, hq4, hq⟩
      · exact hps p hp

theorem specLoop_shape : ∀ (ps : List Str) (addr : List Nat), (∀ p ∈ ps, HexPiece p) →
    ∃ addr', Spec.v6Loop (ps.length + 1) addr none ((ps.flatMap (· ++ u!":")) ++ u!":") = some (addr', 8, some 8) := by
  intro ps
  induction ps with
  | nil => intro addr _; exact ⟨addr, rfl⟩
  | cons p ps ih =>
    intro addr hps
    obtain ⟨h1, h4, hx⟩ := hps p (by simp)
    have hp58 : ∀ c ∈ p, c ≠ 58 := by intro c hc h; subst h; exact absurd (hx _ hc) (by decide)
    obtain ⟨c, cs, rfl⟩ : ∃ c cs, p = c :: cs := by cases p with | nil => simp at h1 | cons c cs => exact ⟨c, cs, rfl⟩
    have ht : ((c :: cs) :: ps).flatMap (· ++ u!":") ++ u!":" = c :: (cs ++ 58 :: (ps.flatMap (· ++ u!":") ++ u!":")) := by simp
    rw [ht, List.length_cons, Spec.v6Loop, if_neg (hp58 c (by simp))]
    obtain ⟨q, s', e1, e2, e3, e4, e5⟩ := v6Hex_spec 4 0 0 (c :: (cs ++ 58 :: (ps.flatMap (· ++ u!":") ++ u!":")))
    have hq : q = c :: cs ∧ s' = 58 :: (ps.flatMap (· ++ u!":") ++ u!":") := by
      have e1' : (c :: cs) ++ 58 :: (ps.flatMap (· ++ u!":") ++ u!":") = q ++ s' := e1
      rcases List.append_eq_append_iff.1 e1' with ⟨w, hw, hw'⟩ | ⟨w, hw, hw'⟩
      · cases w with
        | nil => rw [List.append_nil] at hw; exact ⟨hw, hw'.symm⟩
        | cons a w =>
          injection hw' with ha _
          subst ha
          exact absurd (e2 58 (by rw [hw]; simp)) (by decide)
      · cases w with
        | nil => rw [List.append_nil] at hw; exact ⟨hw.symm, hw'⟩
        | cons a w =>
          exfalso
          rcases e4 with e4 | e4
          · have := congrArg List.length hw
            simp only [List.length_append, List.length_cons] at this h4
            omega
          · have := e4 a _ hw'
            rw [hx a (by rw [hw]; simp)] at this
            cases this
    rw [e5, hq.2]
    simp only
    rw [if_neg (by simp)]
    exact ih _ (fun p hp => hps p (by simp [hp]))

/-! ### What the code does with the other texts -/

theorem ipv6Parse_triple (env : Env) (t : Str) : ipv6Parse env (u!":::" ++ t) = ipv6Parse env (u!"::0:" ++ t) := by
  show v6Run env (58 :: t) { pieceIndex := 1, compress := some 1 } = v6Run env (48 :: 58 :: t) { pieceIndex := 1, compress := some 1 }
  have : v6Loop env (58 :: t) { pieceIndex := 1, compress := some 1 } =
      v6Loop env (48 :: 58 :: t) { pieceIndex := 1, compress := some 1 } := by
    have e : v6Loop env (48 :: 58 :: t) { pieceIndex := 1, compress := some 1 } =
        v6Loop env (58 :: t) { pieceIndex := 1, compress := some 1, piece := [48] } := rfl
    have e2 : v6Loop env (58 :: t) { pieceIndex := 1, compress := some 1, piece := [48] } =
        v6Loop env t { pieceIndex := 2, compress := some 1, prevColon := true } := by
      rw [v6Loop, if_neg (by decide), if_neg (by simp), if_neg (by simp), hexPiece (p := [48]) (by decide) (by simp) (by simp) _ rfl (by decide)]
      rfl
    rw [e, e2]
    rfl
  unfold v6Run
  rw [this]

/-- the loop behind a common beginning -/
theorem v6Loop_prefix {env : Env} {z1 z2 : Str} (H : ∀ st : V6, st.piece = [] → st.addr.length = 8 →
      (v6Loop env z1 st).val = (v6Loop env z2 st).val) (x : Str) :
    ∀ st : V6, (st.prevColon = true → st.piece = []) → (x = [] → st.piece = []) → st.addr.length = 8 →
    (∀ c, x.getLast? = some c → c = 58) →
    (v6Loop env (x ++ z1) st).val = (v6Loop env (x ++ z2) st).val := by
  induction x with
  | nil => intro st _ h2 hl _; exact H st (h2 rfl) hl
  | cons c cs ih =>
    intro st h1 _ hl h3
    have h3' : ∀ d, cs.getLast? = some d → d = 58 := by
      intro d hd
      apply h3
      cases cs with
      | nil => cases hd
      | cons y ys => rw [List.getLast?_cons_cons]; exact hd
    rw [List.cons_append, List.cons_append]
    by_cases h8 : st.pieceIndex ≥ 8
    · rw [v6Loop, v6Loop, if_pos h8, if_pos h8]
    · by_cases hc : c = 58
      · subst hc
        cases hp : st.prevColon with
        | true =>
          have e : ∀ z, v6Loop env (58 :: z) st = if st.compress.isSome then .err .ipv6Parse [.ev .ipv6MultipleCompression]
              else v6Loop env z { st with pieceIndex := st.pieceIndex + 1, compress := some (st.pieceIndex + 1) } := by
            intro z
            rw [v6Loop, if_neg h8, if_neg (by simp), if_pos hp]
          rw [e, e]
          cases st.compress with
          | some v => rfl
          | none => exact ih _ (fun _ => h1 hp) (fun _ => h1 hp) hl h3'
        | false =>
          rcases hv : v6Piece env st true with ⟨r, log⟩
          have e : ∀ z, v6Loop env (58 :: z) st = match v6Piece env st true with
              | ⟨.error e, log⟩ => .err e log
              | ⟨.ok st', _⟩ => v6Loop env z st' := by
            intro z
            rw [v6Loop, if_neg h8, if_neg (by simp), if_neg (by simp [hp])]
            rfl
          rw [e, e, hv]
          cases r with
          | error e => rfl
          | ok st' =>
            obtain ⟨-, -, -, h4, h5⟩ := v6Piece_ok hv
            exact ih st' (fun _ => h4) (fun _ => h4) (h5.trans hl) h3'
      · rw [v6Loop, v6Loop, if_neg h8, if_neg h8, if_pos hc, if_pos hc]
        refine ih _ (fun h => by cases h) ?_ hl h3'
        rintro rfl
        exact absurd (h3 c rfl) hc

theorem v4Part_natDec {n : Nat} (hn : n < 256) : v4Part (natDec n) = some n := by
  have hb : badIPv4Part (natDec n) = false := by
    unfold badIPv4Part
    simp only [Bool.or_eq_false_iff, List.isEmpty_eq_false_iff, List.any_eq_false, Bool.not_eq_true',
      Bool.not_eq_false, Bool.and_eq_false_imp, decide_eq_true_eq, beq_eq_false_iff_ne]
    refine ⟨⟨natDec_ne_nil n, natDec_digits n⟩, ?_⟩
    intro h2
    by_cases h0 : n = 0
    · subst h0; rw [natDec_zero] at h2; simp at h2
    · obtain ⟨d, t, h, hd, -⟩ := natDec_head h0
      rw [h]
      simp
      omega
  unfold v4Part
  rw [hb, natDec_val]
  simp
  omega

/-- the text of a dotted quad is read like that of two pieces -/
theorem v6Loop_quad (env : Env) (he : EnvOK env) {n : Nat} (hn : n < 2 ^ 32) (y : Str) (st : V6) (hp : st.piece = [])
    (hl : st.addr.length = 8) :
    (v6Loop env (Spec.dotted n ++ 58 :: y) st).val =
      (v6Loop env (Spec.hexText (n / 65536) ++ 58 :: (Spec.hexText (n % 65536) ++ 58 :: y)) st).val := by
  obtain ⟨a1, a2, a3, a4, a5⟩ := hexText_props (v := n / 65536) (by omega)
  obtain ⟨b1, b2, b3, b4, b5⟩ := hexText_props (v := n % 65536) (by omega)
  by_cases h8 : st.pieceIndex ≥ 8
  · have : ∀ s, (v6Loop env s st).val = none := by
      intro s
      cases s with
      | nil => rw [v6Loop, if_pos h8]; rfl
      | cons => rw [v6Loop, if_pos h8]; rfl
    rw [this, this]
  have hdig : ∀ m, 58 ∉ natDec m := fun m h => absurd (natDec_digits m 58 h) (by decide)
  have hd58 : 58 ∉ Spec.dotted n := by
    rw [dotted_natDec]
    simp [hdig]
  have hdne : Spec.dotted n ≠ [] := by rw [dotted_natDec]; simp
  have hdot : (Spec.dotted n).contains 46 = true := by
    rw [List.contains_iff_mem]; rw [dotted_natDec]; simp
  have hsplit : splitOn 46 (Spec.dotted n) = [natDec (n / 2 ^ 24), natDec (n / 2 ^ 16 % 256), natDec (n / 2 ^ 8 % 256), natDec (n % 256)] := by
    rw [dotted_natDec]
    simp only [List.append_assoc, List.cons_append, List.nil_append]
    rw [splitOn_append (natDec_no_dot _), splitOn_append (natDec_no_dot _), splitOn_append (natDec_no_dot _), splitOn_no_sep (natDec_no_dot _)]
  have hlist : v4PartList (splitOn 46 (Spec.dotted n)) = some [n / 2 ^ 24, n / 2 ^ 16 % 256, n / 2 ^ 8 % 256, n % 256] := by
    rw [hsplit]
    simp only [v4PartList]
    rw [v4Part_natDec (by omega), v4Part_natDec (by omega), v4Part_natDec (by omega), v4Part_natDec (by omega)]
  rw [v6Loop_read env _ hd58 hdne _ st (by omega), v6Loop_read env _ a4 a2 _ st (by omega), hp, List.nil_append, List.nil_append]
  rw [v6Loop, if_neg (by dsimp only; omega), if_neg (by simp), if_neg (by simp)]
  conv => rhs; rw [v6Loop, if_neg (by dsimp only; omega), if_neg (by simp), if_neg (by simp),
    hexPiece a1 a2 a3 _ rfl (by dsimp only; omega)]
  have hv : v6Piece env { st with piece := Spec.dotted n, prevColon := false } true =
      v6IPv4 env { st with piece := Spec.dotted n, prevColon := false } true := by
    unfold v6Piece
    rw [if_neg (by simpa using hdne), if_neg (by simp only [hdot]; decide)]
  have hval := v6IPv4_val env he { st with piece := Spec.dotted n, prevColon := false } true hl
  rw [hlist] at hval
  dsimp only at hval
  simp only [Res.ok]
  by_cases h6 : st.pieceIndex > 6
  · have h7 : st.pieceIndex = 7 := by omega
    rw [if_pos h6] at hval
    rcases hr : v6Piece env { st with piece := Spec.dotted n, prevColon := false } true with ⟨r, log⟩
    rw [← hv, hr] at hval
    cases r with
    | ok st' => cases hval
    | error e =>
      cases hx : Spec.hexText (n % 65536) ++ 58 :: y with
      | nil => simp at hx
      | cons c cs => rw [v6Loop, if_pos (by dsimp only; omega)]; rfl
  · rw [if_neg h6] at hval
    rcases hr : v6Piece env { st with piece := Spec.dotted n, prevColon := false } true with ⟨r, log⟩
    rw [← hv, hr] at hval
    cases r with
    | error e => cases hval
    | ok st' =>
      obtain ⟨h1, h2, -, h4, -⟩ := v6Piece_ok hr
      simp only [Res.val, Option.map_some, V6.core, Option.some.injEq, Prod.mk.injEq] at hval
      have hst : st' = { addr := (st.addr.set st.pieceIndex (n / 65536)).set (st.pieceIndex + 1) (n % 65536), pieceIndex := st.pieceIndex + 2, compress := st.compress, piece := [], prevColon := true } := by
        obtain ⟨x1, x2, x3, x4, x5⟩ := st'
        dsimp only at h1 h2 h4 hval ⊢
        obtain ⟨e1, e2, e3⟩ := hval
        rw [h1, h4, e1, e2, e3]
        congr 2
        · congr 1; omega
        · omega
      dsimp only
      rw [hst, v6Loop_read env _ b4 b2 _ _ (by dsimp only; omega), v6Loop, if_neg (by dsimp only; omega), if_neg (by simp), if_neg (by simp),
        hexPiece b1 b2 b3 _ (by simp) (by simp; omega), a5, b5]
      rfl

theorem v6Run_congr {env : Env} {s s' : Str} {st : V6} (h : (v6Loop env s st).val = (v6Loop env s' st).val) :
    (v6Run env s st).val = (v6Run env s' st).val := by
  unfold v6Run
  rcases hr : v6Loop env s st with ⟨r, l⟩
  rcases hr' : v6Loop env s' st with ⟨r', l'⟩
  rw [hr, hr'] at h
  cases r with
  | error e =>
    cases r' with
    | error e' => rfl
    | ok b => cases h
  | ok a =>
    cases r' with
    | error e' => cases h
    | ok b =>
      injection h with h
      dsimp only
      rw [h]

theorem ipv6Parse_quad (env : Env) (he : EnvOK env) {n : Nat} (hn : n < 2 ^ 32) {x : Str} (hx : ∀ c, x.getLast? = some c → c = 58) (y : Str) :
    (ipv6Parse env (x ++ (Spec.dotted n ++ 58 :: y))).val =
      (ipv6Parse env (x ++ (Spec.hexText (n / 65536) ++ 58 :: (Spec.hexText (n % 65536) ++ 58 :: y)))).val := by
  have H := fun st h1 h2 => v6Loop_quad env he hn y st h1 h2
  obtain ⟨a1, a2, a3, a4, a5⟩ := hexText_props (v := n / 65536) (by omega)
  obtain ⟨d, ds, hd, hd58⟩ : ∃ d ds, Spec.dotted n ++ 58 :: y = d :: ds ∧ d ≠ 58 := by
    rw [dotted_natDec]
    cases h : natDec (n / 2 ^ 24) with
    | nil => exact absurd h (natDec_ne_nil _)
    | cons d ds =>
      refine ⟨d, _, rfl, ?_⟩
      rintro rfl
      exact absurd (natDec_digits (n / 2 ^ 24) 58 (by rw [h]; simp)) (by decide)
  obtain ⟨e, es, he', he58⟩ : ∃ d ds, Spec.hexText (n / 65536) ++ 58 :: (Spec.hexText (n % 65536) ++ 58 :: y) = d :: ds ∧ d ≠ 58 := by
    cases h : Spec.hexText (n / 65536) with
    | nil => exact absurd h a2
    | cons d ds =>
      refine ⟨d, _, rfl, ?_⟩
      rintro rfl
      exact a4 (by rw [h]; simp)
  match x with
  | [] =>
    rw [List.nil_append, List.nil_append]
    have := H {} rfl rfl
    rw [hd, he'] at this ⊢
    rw [ipv6Parse_nocolon env _ hd58, ipv6Parse_nocolon env _ he58]
    exact v6Run_congr this
  | [c] =>
    obtain rfl : c = 58 := hx c rfl
    rw [hd, he', List.cons_append, List.cons_append, List.nil_append, List.nil_append, ipv6Parse_onecolon env hd58, ipv6Parse_onecolon env he58]
  | c :: c' :: x =>
    have hx' : ∀ d, x.getLast? = some d → d = 58 := by
      intro d hd
      apply hx
      cases x with
      | nil => cases hd
      | cons z zs => rw [List.getLast?_cons_cons, List.getLast?_cons_cons]; exact hd
    by_cases hc : c = 58
    · subst hc
      by_cases hc' : c' = 58
      · subst hc'
        exact v6Run_congr (v6Loop_prefix H x _ (fun _ => rfl) (fun _ => rfl) rfl hx')
      · rw [List.cons_append, List.cons_append, List.cons_append, List.cons_append, ipv6Parse_onecolon env hc', ipv6Parse_onecolon env hc']
    · show (ipv6Parse env (c :: (c' :: x ++ _))).val = (ipv6Parse env (c :: (c' :: x ++ _))).val
      rw [ipv6Parse_nocolon env _ hc, ipv6Parse_nocolon env _ hc]
      exact v6Run_congr (v6Loop_prefix H (c :: c' :: x) _ (fun _ => rfl) (fun _ => rfl) rfl hx)

/-! ### The differences -/

theorem spec_triple (t : Str) : Spec.ipv6Parse (u!":::" ++ t) = none := rfl

theorem spec_onecolon {d : Nat} (hd : d ≠ 58) (u : Str) : Spec.ipv6Parse (58 :: d :: u) = none := by
  unfold Spec.ipv6Parse
  split
  · rename_i h; injection h with _ h; injection h with h _; exact absurd h hd
  · rfl
  · rename_i h; exact absurd rfl (h _)

theorem spec_nocolon {c : Nat} (hc : c ≠ 58) (t : Str) :
    Spec.ipv6Parse (c :: t) = specFinish (Spec.v6Loop 8 [0, 0, 0, 0, 0, 0, 0, 0] none (c :: t)) := by
  unfold Spec.ipv6Parse
  split
  · rename_i h; injection h with h _; exact absurd h hc
  · rename_i h; injection h with h _; exact absurd h hc
  · rfl

theorem specFinish_some {r : Option (List Nat × Nat × Option Nat)} {a : List Nat} (h : specFinish r = some a) : ∃ x, r = some x := by
  cases r with
  | none => cases h
  | some x => exact ⟨x, rfl⟩

theorem spec_noDotColon {s : Str} {a : List Nat} (h : Spec.ipv6Parse s = some a) : NoDotColon s := by
  match s with
  | [] => intro x y hxy; simp at hxy
  | [c] =>
    intro x y hxy
    match x with
    | [] => injection hxy with _ hxy; subst hxy; simp
    | [_] => injection hxy with _ hxy; cases hxy
    | _ :: _ :: _ => injection hxy with _ hxy; cases hxy
  | c :: d :: t =>
    by_cases hc : c = 58
    · subst hc
      by_cases hd : d = 58
      · subst hd
        obtain ⟨x, hx⟩ := specFinish_some (r := Spec.v6Loop 7 [0, 0, 0, 0, 0, 0, 0, 0] (some 1) t) h
        have := v6Loop_noDotColon _ _ _ _ _ hx
        intro x y hxy
        match x with
        | [] => injection hxy with hxy _; cases hxy
        | [_] => injection hxy with _ hxy; injection hxy with hxy _; cases hxy
        | _ :: _ :: x => injection hxy with _ hxy; injection hxy with _ hxy; exact this x y hxy
      · rw [spec_onecolon hd] at h; cases h
    · rw [spec_nocolon hc] at h
      obtain ⟨x, hx⟩ := specFinish_some h
      exact v6Loop_noDotColon _ _ _ _ _ hx

/-- the standard accepts seven pieces with "::" behind them, and no other text with eight colons that ends in "::" -/
theorem spec_eighth {s : Str} : (s.count 58 = 8 ∧ (∃ t, s = t ++ u!"::") ∧ Spec.ipv6Parse s ≠ none) ↔
    ∃ ps : List Str, ps.length = 7 ∧ (∀ p ∈ ps, HexPiece p) ∧ s = (ps.flatMap (· ++ u!":")) ++ u!":" := by
  constructor
  · rintro ⟨h8, he, hne⟩
    obtain ⟨a, ha⟩ := Option.ne_none_iff_exists'.1 hne
    match s with
    | [] => simp at h8
    | [c] => have := List.count_le_length (a := 58) (l := [c]); simp at this; omega
    | c :: d :: t =>
      by_cases hc : c = 58
      · subst hc
        by_cases hd : d = 58
        · subst hd
          exfalso
          have : EndsCC true t := by
            obtain ⟨w, hw⟩ := he
            match w with
            | [] => injection hw with _ hw; injection hw with _ hw; subst hw; simp at h8
            | [_] => injection hw with _ hw; injection hw with _ hw; subst hw; simp at h8
            | _ :: _ :: w => injection hw with _ hw; injection hw with _ hw; exact .inl ⟨w, hw⟩
          obtain ⟨x, hx⟩ := specFinish_some (r := Spec.v6Loop 7 [0, 0, 0, 0, 0, 0, 0, 0] (some 1) t) ha
          rw [specLoop_second _ _ _ _ this] at hx
          cases hx
        · rw [spec_onecolon hd] at ha; cases ha
      · rw [spec_nocolon hc] at ha
        obtain ⟨x, hx⟩ := specFinish_some ha
        obtain ⟨ps, h1, h2, h3⟩ := specLoop_eighth _ _ _ _ hx h8 (.inl he)
        exact ⟨ps, by omega, h2, h3⟩
  · rintro ⟨ps, hl, hps, rfl⟩
    obtain ⟨addr, ha⟩ := specLoop_shape ps [0, 0, 0, 0, 0, 0, 0, 0] hps
    have hcnt : ∀ ps : List Str, (∀ p ∈ ps, HexPiece p) → (ps.flatMap (· ++ u!":")).count 58 = ps.length := by
      intro ps
      induction ps with
      | nil => intro _; rfl
      | cons p ps ih =>
        intro h
        rw [List.flatMap_cons, List.count_append, List.count_append, ih (fun q hq => h q (by simp [hq])),
          List.count_eq_zero_of_not_mem (fun hm => absurd ((h p (by simp)).2.2 58 hm) (by decide))]
        simp
        omega
    refine ⟨?_, ?_, ?_⟩
    · rw [List.count_append, hcnt ps hps, hl]; rfl
    · obtain ⟨qs, q, rfl⟩ : ∃ qs q, ps = qs ++ [q] := by
        rcases List.eq_nil_or_concat ps with rfl | ⟨qs, q, h⟩
        · cases hl
        · exact ⟨qs, q, by simpa using h⟩
      exact ⟨qs.flatMap (· ++ u!":") ++ q, by simp⟩
    · match ps, hl with
      | p :: ps, hl =>
        obtain ⟨h1, -, h3⟩ := hps p (by simp)
        obtain ⟨c, cs, rfl⟩ : ∃ c cs, p = c :: cs := by cases p with | nil => simp at h1 | cons c cs => exact ⟨c, cs, rfl⟩
        have hc : c ≠ 58 := by rintro rfl; exact absurd (h3 58 (by simp)) (by decide)
        have ht : ((c :: cs) :: ps).flatMap (· ++ u!":") ++ u!":" = c :: (cs ++ 58 :: (ps.flatMap (· ++ u!":") ++ u!":")) := by simp
        rw [hl] at ha
        rw [ht] at ha ⊢
        rw [spec_nocolon hc, ha]
        simp [specFinish]

end Urlstd
