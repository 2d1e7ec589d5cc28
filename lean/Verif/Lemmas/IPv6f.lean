/-
Lemmas on the grammar of IPv6 addresses (C96).
-/
import Verif.Lemmas.IPv6e
import Verif.Lemmas.Injective
import Verif.Spec.IPv6Text

namespace Urlstd

open Spec (V6Item V6Groups V6Side V6Text StartsColon)

theorem v4Part_iff {x : Str} {v : Nat} : v4Part x = some v ↔ x = natDec v ∧ v < 256 := by
  constructor
  · intro h
    unfold v4Part at h
    split at h
    · cases h
    · rename_i hb
      obtain ⟨h1, h2, h3⟩ := not_badIPv4Part (by simpa using hb)
      split at h
      · cases h
      · injection h with h
        subst h
        exact ⟨(natDec_numVal h2 h1 h3).symm, by omega⟩
  · rintro ⟨rfl, h⟩; exact v4Part_natDec h

theorem natDec_no {n c : Nat} (hc : isDigit c = false) : c ∉ natDec n := fun h => by
  rw [natDec_digits n c h] at hc; cases hc

theorem dotted_join (n : Nat) : Spec.dotted n = joinWith [46]
    [natDec (n / 2 ^ 24), natDec (n / 2 ^ 16 % 256), natDec (n / 2 ^ 8 % 256), natDec (n % 256)] := by
  rw [dotted_natDec]; simp [joinWith]

theorem dotted_split (n : Nat) : splitOn 46 (Spec.dotted n) =
    [natDec (n / 2 ^ 24), natDec (n / 2 ^ 16 % 256), natDec (n / 2 ^ 8 % 256), natDec (n % 256)] := by
  rw [dotted_join]
  refine splitOn_joinWith (by simp) ?_
  intro p hp
  simp only [List.mem_cons, List.not_mem_nil, or_false] at hp
  rcases hp with rfl | rfl | rfl | rfl <;> exact natDec_no (by decide)

/-- a dotted text in an IPv6 address -/
theorem v4PartList_iff {p : Str} {a b c d : Nat} : v4PartList (splitOn 46 p) = some [a, b, c, d] ↔
    a < 256 ∧ b < 256 ∧ c < 256 ∧ d < 256 ∧ p = Spec.dotted (a * 2 ^ 24 + b * 2 ^ 16 + c * 2 ^ 8 + d) := by
  have cons : ∀ (xs : List Str) (v : Nat) (vs : List Nat), v4PartList xs = some (v :: vs) ↔
      ∃ ys, xs = natDec v :: ys ∧ v < 256 ∧ v4PartList ys = some vs := by
    intro xs v vs
    cases xs with
    | nil => simp [v4PartList]
    | cons x xs =>
      rw [v4PartList]
      constructor
      · intro h
        split at h
        · next w ws hw hws =>
          injection h with h
          injection h with h1 h2
          subst h1 h2
          obtain ⟨e, hlt⟩ := v4Part_iff.1 hw
          exact ⟨xs, by rw [e], hlt, hws⟩
        · cases h
      · rintro ⟨ys, h1, h2, h3⟩
        injection h1 with h1 h4
        subst h4
        rw [v4Part_iff.2 ⟨h1, h2⟩, h3]
  have nil : ∀ xs : List Str, v4PartList xs = some [] ↔ xs = [] := by
    intro xs
    constructor
    · intro h; have := (v4PartList_some h).1; simpa using this
    · rintro rfl; rfl
  have e : ∀ a b c d : Nat, a < 256 → b < 256 → c < 256 → d < 256 →
      (a * 2 ^ 24 + b * 2 ^ 16 + c * 2 ^ 8 + d) / 2 ^ 24 = a ∧ (a * 2 ^ 24 + b * 2 ^ 16 + c * 2 ^ 8 + d) / 2 ^ 16 % 256 = b ∧
      (a * 2 ^ 24 + b * 2 ^ 16 + c * 2 ^ 8 + d) / 2 ^ 8 % 256 = c ∧ (a * 2 ^ 24 + b * 2 ^ 16 + c * 2 ^ 8 + d) % 256 = d := by
    intro a b c d h1 h2 h3 h4
    omega
  rw [cons]
  constructor
  · rintro ⟨ys, h1, ha, h⟩
    rw [cons] at h
    obtain ⟨ys, rfl, hb, h⟩ := h
    rw [cons] at h
    obtain ⟨ys, rfl, hc, h⟩ := h
    rw [cons] at h
    obtain ⟨ys, rfl, hd, h⟩ := h
    rw [nil] at h
    subst h
    obtain ⟨e1, e2, e3, e4⟩ := e a b c d ha hb hc hd
    refine ⟨ha, hb, hc, hd, ?_⟩
    rw [dotted_join, e1, e2, e3, e4, ← h1, joinWith_splitOn]
  · rintro ⟨ha, hb, hc, hd, rfl⟩
    obtain ⟨e1, e2, e3, e4⟩ := e a b c d ha hb hc hd
    rw [dotted_split, e1, e2, e3, e4]
    refine ⟨_, rfl, ha, ?_⟩
    rw [cons]; refine ⟨_, rfl, hb, ?_⟩
    rw [cons]; refine ⟨_, rfl, hc, ?_⟩
    rw [cons]; exact ⟨_, rfl, hd, rfl⟩

/-- the state after pieces -/
def V6.after (st : V6) (ws : List Nat) (b : Bool) : V6 :=
  { st with addr := setMany st.addr st.pieceIndex ws, pieceIndex := st.pieceIndex + ws.length, piece := [], prevColon := b }

theorem setMany_append (vs : List Nat) : ∀ (a : List Nat) (i : Nat) (ws : List Nat),
    setMany a i (vs ++ ws) = setMany (setMany a i vs) (i + vs.length) ws := by
  induction vs with
  | nil => intros; rfl
  | cons v vs ih =>
    intro a i ws
    rw [List.cons_append, setMany, setMany, ih, List.length_cons, Nat.add_right_comm, Nat.add_assoc]

theorem V6.after_after (st : V6) (vs ws : List Nat) (b b' : Bool) :
    (st.after vs b).after ws b' = st.after (vs ++ ws) b' := by
  unfold V6.after
  simp only [List.length_append, setMany_append, Nat.add_assoc]

theorem v6Item_no {p : Str} {ws : List Nat} (h : V6Item p ws) : 58 ∉ p ∧ p ≠ [] ∧ 1 ≤ ws.length := by
  cases h with
  | hex _ v h1 h4 hv =>
    refine ⟨fun hc => ?_, h1, by simp⟩
    by_cases hn : IsNumeral 16 p
    · have := hn 58 hc
      revert this; decide
    · rw [radixValue_none (by omega) hn] at hv; cases hv
  | quad n hn =>
    refine ⟨?_, ?_, by simp⟩
    · rw [dotted_natDec]
      simp only [List.mem_append, List.mem_cons, List.not_mem_nil, or_false, not_or]
      refine ⟨⟨⟨⟨⟨⟨?_, by decide⟩, ?_⟩, by decide⟩, ?_⟩, by decide⟩, ?_⟩ <;> exact natDec_no (by decide)
    · rw [dotted_natDec]; simp

theorem quad_words (n : Nat) : n / 2 ^ 24 * 256 + n / 2 ^ 16 % 256 = n / 2 ^ 16 ∧
    n / 2 ^ 8 % 256 * 256 + n % 256 = n % 2 ^ 16 := by
  constructor <;> omega

/-- one group -/
theorem v6Piece_iff {env : Env} (he : EnvOK env) {st st' : V6} {b : Bool} (hi : st.Inv) (h8 : st.pieceIndex < 8)
    (hp : st.piece ≠ []) : (v6Piece env st b).val = some st' ↔
      ∃ ws, V6Item st.piece ws ∧ st.pieceIndex + ws.length ≤ 8 ∧ st' = st.after ws b := by
  have hl := hi.len
  by_cases hd : st.piece.contains 46 = true
  · have e0 : v6Piece env st b = v6IPv4 env st b := by
      unfold v6Piece
      rw [if_neg (by simp [hp]), if_neg (by simp only [hd]; decide)]
    have hv := v6IPv4_val env he st b hl
    constructor
    · intro h
      have hok := h
      rw [e0] at h
      rw [h] at hv
      have hst : st'.piece = [] ∧ st'.prevColon = b := by
        rcases hr : v6Piece env st b with ⟨r, log⟩
        rw [hr] at hok
        cases r with
        | error e => cases hok
        | ok st2 =>
          injection hok with hok
          subst hok
          have := v6Piece_ok hr
          exact ⟨this.2.2.2.1, this.1⟩
      split at hv
      · cases hv
      next h6 =>
      split at hv
      · next x y z w hx =>
        obtain ⟨h1, h2, h3, h4, h5⟩ := v4PartList_iff.1 hx
        refine ⟨[x * 0x100 + y, z * 0x100 + w], ?_, by simp; omega, ?_⟩
        · rw [h5]
          have := V6Item.quad (x * 2 ^ 24 + y * 2 ^ 16 + z * 2 ^ 8 + w) (by omega)
          have e1 : (x * 2 ^ 24 + y * 2 ^ 16 + z * 2 ^ 8 + w) / 2 ^ 16 = x * 0x100 + y := by omega
          have e2 : (x * 2 ^ 24 + y * 2 ^ 16 + z * 2 ^ 8 + w) % 2 ^ 16 = z * 0x100 + w := by omega
          rwa [e1, e2] at this
        · simp only [Option.map_some, V6.core, Option.some.injEq, Prod.mk.injEq] at hv
          cases st'
          simp only at hst hv
          obtain ⟨rfl, rfl⟩ := hst
          obtain ⟨rfl, rfl, rfl⟩ := hv
          rfl
      · cases hv
    · rintro ⟨ws, hit, hws, rfl⟩
      generalize hq : st.piece = q at hit
      cases hit with
      | hex _ v h1 h4 hr =>
        exfalso
        by_cases hn : IsNumeral 16 q
        · have : (46 : Nat) ∈ q := by rw [hq] at hd; simpa using hd
          have := hn 46 this
          revert this; decide
        · rw [radixValue_none (by omega) hn] at hr; cases hr
      | quad n hn =>
        simp at hws
        rw [if_neg (by omega), hq] at hv
        have e1 : v4PartList (splitOn 46 (Spec.dotted n)) = some [n / 2 ^ 24, n / 2 ^ 16 % 256, n / 2 ^ 8 % 256, n % 256] := by
          rw [v4PartList_iff]
          refine ⟨by omega, by omega, by omega, by omega, ?_⟩
          congr 1
          omega
        rw [e1] at hv
        dsimp only at hv
        rw [e0]
        rcases hr : v6IPv4 env st b with ⟨r, log⟩
        rw [hr] at hv
        cases r with
        | error e => cases hv
        | ok st2 =>
          have h2 := v6Piece_ok (e0.trans hr)
          show some st2 = _
          simp only [Res.val, Option.map_some, V6.core, Option.some.injEq, Prod.mk.injEq] at hv
          cases st2
          simp only at h2 hv
          obtain ⟨rfl, -, -, rfl, -⟩ := h2
          obtain ⟨rfl, rfl, rfl⟩ := hv
          obtain ⟨e2, e3⟩ := quad_words n
          simp only [V6.after, setMany, List.length_cons, List.length_nil, e2, e3]
  · by_cases hx : (decide (st.piece.length > 4) || st.piece.any (!isHex ·)) = true
    · have e0 : (v6Piece env st b).val = none := by
        unfold v6Piece
        rw [if_neg (by simp [hp]), if_pos (by simpa using hd), if_pos hx]
        rfl
      rw [e0]
      constructor
      · intro h; cases h
      · rintro ⟨ws, hit, -, -⟩
        exfalso
        generalize hq : st.piece = q at hit hx hd
        cases hit with
        | hex _ v h1 h4 hr =>
          by_cases hn : IsNumeral 16 q
          · simp only [Bool.or_eq_true, decide_eq_true_eq, List.any_eq_true] at hx
            rcases hx with hx | ⟨c, hc, hx⟩
            · omega
            · have := digitValue_lt16.1 (hn c hc)
              rw [this] at hx; cases hx
          · rw [radixValue_none (by omega) hn] at hr; cases hr
        | quad n hn =>
          apply hd
          rw [dotted_natDec]
          simp
    · simp only [Bool.not_eq_true, Bool.or_eq_false_iff, decide_eq_false_iff_not, List.any_eq_false,
          Bool.not_eq_true', Bool.not_eq_false] at hx
      have hn : IsNumeral 16 st.piece := fun c hc => digitValue_lt16.2 (hx.2 c hc)
      rw [hexPiece (env := env) hx.2 hp (by omega) st rfl (by omega) b]
      constructor
      · intro h
        injection h with h
        exact ⟨[numVal 16 st.piece], .hex _ _ hp (by omega) (radixValue_numeral (by omega) hn), by simp; omega, h.symm⟩
      · rintro ⟨ws, hit, -, rfl⟩
        generalize hq : st.piece = q at hit hn hd
        cases hit with
        | hex _ v h1 h4 hr =>
          rw [radixValue_numeral (by omega) hn] at hr
          injection hr with hr
          subst hr
          rfl
        | quad n h =>
          exfalso
          apply hd
          rw [dotted_natDec]
          simp

theorem v6Groups_cases {s : Str} {ws : List Nat} (h : V6Groups s ws) :
    ∃ p rest vs, s = p ++ rest ∧ V6Item p vs ∧ ((rest = [] ∧ ws = vs) ∨
      ∃ t us, rest = 58 :: t ∧ V6Groups t us ∧ ws = vs ++ us) := by
  cases h with
  | one h => exact ⟨_, [], _, by simp, h, .inl ⟨rfl, rfl⟩⟩
  | cons h ht => exact ⟨_, 58 :: _, _, by simp, h, .inr ⟨_, _, rfl, ht, rfl⟩⟩

theorem v6Groups_head {s : Str} {ws : List Nat} (h : V6Groups s ws) : s ≠ [] ∧ s.head? ≠ some 58 ∧ 1 ≤ ws.length := by
  obtain ⟨p, rest, vs, rfl, hp, hr⟩ := v6Groups_cases h
  obtain ⟨h1, h2, h3⟩ := v6Item_no hp
  refine ⟨by simp [h2], ?_, ?_⟩
  · cases p with
    | nil => exact absurd rfl h2
    | cons c p => simp at h1 ⊢; exact fun e => h1.1 e.symm
  · rcases hr with ⟨-, rfl⟩ | ⟨t, us, -, -, rfl⟩
    · exact h3
    · simp; omega

theorem colon_split {p q rest rest' : Str} (hp : 58 ∉ p) (hq : 58 ∉ q) (hr : StartsColon rest) (hr' : StartsColon rest')
    (h : p ++ rest = q ++ rest') : p = q ∧ rest = rest' := by
  have f : ∀ z : Str, StartsColon z → ∀ c, z.head? = some c → (c == 58) = true := by
    intro z hz c hc
    rcases hz with rfl | hz
    · cases hc
    · rw [hz] at hc; injection hc with hc; simp [← hc]
  have g : ∀ z : Str, 58 ∉ z → ∀ c ∈ z, (c == 58) = false := by
    intro z hz c hc
    rw [beq_eq_false_iff_ne]
    rintro rfl
    exact hz hc
  exact split_unique (p := (· == 58)) (g p hp) (g q hq) (f _ hr) (f _ hr') h

theorem v6Groups_item {p : Str} {ws : List Nat} (hp : 58 ∉ p) : V6Groups p ws ↔ V6Item p ws := by
  refine ⟨fun h => ?_, .one⟩
  obtain ⟨q, rest, vs, e, hq, hr⟩ := v6Groups_cases h
  rcases hr with ⟨rfl, rfl⟩ | ⟨t, us, rfl, -, -⟩
  · rw [e]; simpa using hq
  · exact absurd (by rw [e]; simp) hp

theorem v6Groups_cons {p t : Str} {ws : List Nat} (hp : 58 ∉ p) : V6Groups (p ++ 58 :: t) ws ↔
    ∃ vs us, V6Item p vs ∧ V6Groups t us ∧ ws = vs ++ us := by
  constructor
  · intro h
    obtain ⟨q, rest, vs, e, hq, hr⟩ := v6Groups_cases h
    have hq58 := (v6Item_no hq).1
    rcases hr with ⟨rfl, rfl⟩ | ⟨t', us, rfl, ht, rfl⟩
    · have := (colon_split hp hq58 (.inr rfl) (.inl rfl) e).2; cases this
    · obtain ⟨rfl, e2⟩ := colon_split hp hq58 (.inr rfl) (.inr rfl) e
      injection e2 with _ e2
      subst e2
      exact ⟨vs, us, hq, ht, rfl⟩
  · rintro ⟨vs, us, h1, h2, rfl⟩
    have := V6Groups.cons h1 h2
    simpa using this

theorem v6Run_val (env : Env) (s : Str) (st : V6) :
    (v6Run env s st).val = (v6Loop env s st).val.bind fun st' => (v6Finish st').val := by
  unfold v6Run
  rcases v6Loop env s st with ⟨r, log⟩
  cases r <;> rfl

theorem v6Finish_congr {st st' : V6} (h : st.core = st'.core) : v6Finish st = v6Finish st' := by
  cases st; cases st'
  simp only [V6.core, Prod.mk.injEq] at h
  obtain ⟨rfl, rfl, rfl⟩ := h
  rfl

/-- one group of the loop, then a colon -/
theorem v6Loop_group {env : Env} {st : V6} {p : Str} (h8 : st.pieceIndex < 8) (hpc : st.piece = [])
    (hp : 58 ∉ p) (hne : p ≠ []) (t : Str) : v6Loop env (p ++ 58 :: t) st =
      match v6Piece env { st with piece := p, prevColon := false } true with
      | ⟨.error e, log⟩ => .err e log
      | ⟨.ok st', _⟩ => v6Loop env t st' := by
  rw [v6Loop_read env p hp hne _ st h8, hpc, List.nil_append, v6Loop, if_neg (by dsimp only; omega), if_neg (by simp),
    if_neg (by simp)]
  rfl

theorem v6Loop_last {env : Env} {st : V6} {p : Str} (h8 : st.pieceIndex < 8) (hpc : st.piece = [])
    (hp : 58 ∉ p) (hne : p ≠ []) : v6Loop env p st = v6Piece env { st with piece := p, prevColon := false } false := by
  have := v6Loop_read env p hp hne [] st h8
  rw [List.append_nil] at this
  rw [this, hpc, List.nil_append, v6Loop, if_neg (by dsimp only; omega), if_neg (by simp)]

theorem v6Loop_full {env : Env} {s : Str} {st : V6} (h : 8 ≤ st.pieceIndex) : (v6Loop env s st).val = none := by
  cases s <;> (rw [v6Loop, if_pos h]; rfl)

/-- a group and a colon, as an equation on values -/
theorem v6Loop_group_val {env : Env} (he : EnvOK env) {st st' : V6} {p : Str} (hi : st.Inv) (h8 : st.pieceIndex < 8)
    (hpc : st.piece = []) (hp : 58 ∉ p) (hne : p ≠ []) (t : Str) : (v6Loop env (p ++ 58 :: t) st).val = some st' ↔
      ∃ ws, V6Item p ws ∧ st.pieceIndex + ws.length ≤ 8 ∧ (v6Loop env t (st.after ws true)).val = some st' := by
  have hi' : ({ st with piece := p, prevColon := false } : V6).Inv := ⟨hi.len, hi.small, hi.idx, hi.comp⟩
  rw [v6Loop_group h8 hpc hp hne]
  have hpi := fun st2 => v6Piece_iff (b := true) (st' := st2) he hi' h8 hne
  constructor
  · intro h
    rcases hr : v6Piece env { st with piece := p, prevColon := false } true with ⟨r, log⟩
    rw [hr] at h
    cases r with
    | error e => cases h
    | ok st2 =>
      obtain ⟨ws, h1, h2, rfl⟩ := (hpi st2).1 (by rw [hr]; rfl)
      exact ⟨ws, h1, h2, h⟩
  · rintro ⟨ws, h1, h2, h3⟩
    have := (hpi _).2 ⟨ws, h1, h2, rfl⟩
    rcases hr : v6Piece env { st with piece := p, prevColon := false } true with ⟨r, log⟩
    rw [hr] at this
    cases r with
    | error e => cases this
    | ok st2 =>
      injection this with this
      subst this
      exact h3

theorem v6Loop_last_val {env : Env} (he : EnvOK env) {st st' : V6} {p : Str} (hi : st.Inv) (h8 : st.pieceIndex < 8)
    (hpc : st.piece = []) (hp : 58 ∉ p) (hne : p ≠ []) : (v6Loop env p st).val = some st' ↔
      ∃ ws, V6Item p ws ∧ st.pieceIndex + ws.length ≤ 8 ∧ st' = st.after ws false := by
  have hi' : ({ st with piece := p, prevColon := false } : V6).Inv := ⟨hi.len, hi.small, hi.idx, hi.comp⟩
  rw [v6Loop_last h8 hpc hp hne]
  exact v6Piece_iff (b := false) he hi' h8 hne

theorem v6Item_small {p : Str} {ws : List Nat} (h : V6Item p ws) : ∀ v ∈ ws, v < 65536 := by
  cases h with
  | hex _ v h1 h4 hv =>
    intro w hw
    obtain rfl : w = v := by simpa using hw
    by_cases hn : IsNumeral 16 p
    · rw [radixValue_numeral (by omega) hn] at hv
      injection hv with hv
      have := numVal_lt p hn
      have h2 : 16 ^ p.length ≤ 16 ^ 4 := Nat.pow_le_pow_right (by omega) h4
      omega
    · rw [radixValue_none (by omega) hn] at hv; cases hv
  | quad n hn => intro w hw; simp at hw; omega

theorem V6.after_inv {st : V6} {ws : List Nat} {b : Bool} (hi : st.Inv) (hw : ∀ v ∈ ws, v < 65536)
    (h : st.pieceIndex + ws.length ≤ 8) : (st.after ws b).Inv := by
  refine ⟨by simp [V6.after, setMany_length, hi.len], ?_, h, ?_⟩
  · have : ∀ (ws : List Nat) (a : List Nat) (i : Nat), (∀ v ∈ a, v < 65536) → (∀ v ∈ ws, v < 65536) →
        ∀ v ∈ setMany a i ws, v < 65536 := by
      intro ws
      induction ws with
      | nil => intro a i h _; exact h
      | cons w ws ih =>
        intro a i h h2
        rw [setMany]
        refine ih _ _ (fun v hv => ?_) (fun v hv => h2 v (by simp [hv]))
        rcases List.mem_or_eq_of_mem_set hv with hv | rfl
        · exact h v hv
        · exact h2 v (by simp)
    exact this ws _ _ hi.small hw
  · intro c hc
    have := hi.comp c hc
    simp only [V6.after]; omega

/-- the groups behind "::" -/
theorem v6Loop_behind {env : Env} (he : EnvOK env) : ∀ (n : Nat) (s : Str) (st st' : V6), s.length ≤ n → st.Inv → st.piece = [] →
    st.compress.isSome = true → s ≠ [] → s.head? ≠ some 58 →
    ((v6Loop env s st).val = some st' ↔ ∃ ws, V6Groups s ws ∧ st.pieceIndex + ws.length ≤ 8 ∧ st' = st.after ws false) := by
  intro n
  induction n with
  | zero => intro s st st' hn _ _ _ hne; exact absurd (by simpa using hn) hne
  | succ n ih =>
    intro s st st' hn hi hpc hcm hne hh
    by_cases h8 : 8 ≤ st.pieceIndex
    · rw [v6Loop_full h8]
      constructor
      · intro h; cases h
      · rintro ⟨ws, h1, h2, -⟩; have := (v6Groups_head h1).2.2; omega
    obtain ⟨p, rest, rfl, hp58, hrest⟩ := starts_colon_cases s
    have hpe : p ≠ [] := by
      rintro rfl
      rcases hrest with rfl | hr
      · exact hne rfl
      · exact hh hr
    rcases hrest with rfl | hr
    · rw [List.append_nil, v6Loop_last_val he hi (by omega) hpc hp58 hpe]
      simp only [v6Groups_item hp58]
    · cases rest with
      | nil => cases hr
      | cons c t =>
        obtain rfl : c = 58 := by simpa using hr
        rw [v6Loop_group_val he hi (by omega) hpc hp58 hpe]
        simp only [v6Groups_cons hp58]
        have key : ∀ ws, V6Item p ws → st.pieceIndex + ws.length ≤ 8 → ((v6Loop env t (st.after ws true)).val = some st' ↔
            ∃ us, V6Groups t us ∧ st.pieceIndex + ws.length + us.length ≤ 8 ∧ st' = st.after (ws ++ us) false) := by
          intro ws hw hl
          have h3 := (v6Item_no hw).2.2
          cases t with
          | nil =>
            have e : (v6Loop env [] (st.after ws true)).val = none := by
              rw [v6Loop]
              split
              · rfl
              · rw [if_pos (show (st.after ws true).prevColon = true from rfl), if_neg]
                · rfl
                · cases hc : st.compress with
                  | none => rw [hc] at hcm; cases hcm
                  | some k =>
                    have := hi.comp k hc
                    simp only [V6.after, hc, beq_iff_eq, Option.some.injEq]
                    omega
            rw [e]
            constructor
            · intro h; cases h
            · rintro ⟨us, h, -⟩; exact absurd rfl (v6Groups_head h).1
          | cons d t =>
            by_cases hd : d = 58
            · subst hd
              have e : (v6Loop env (58 :: t) (st.after ws true)).val = none := by
                rw [v6Loop]
                split
                · rfl
                · rw [if_neg (by simp), if_pos (show (st.after ws true).prevColon = true from rfl), if_pos (show (st.after ws true).compress.isSome = true from hcm)]; rfl
              rw [e]
              constructor
              · intro h; cases h
              · rintro ⟨us, h, -⟩; exact absurd rfl (v6Groups_head h).2.1
            · rw [ih (d :: t) (st.after ws true) st' (by simp at hn ⊢; omega) (V6.after_inv hi (v6Item_small hw) hl) rfl hcm
                (by simp) (by simpa using hd)]
              simp only [V6.after_after]
              rfl
        constructor
        · rintro ⟨ws, h1, h2, h3⟩
          obtain ⟨us, h4, h5, h6⟩ := (key ws h1 h2).1 h3
          exact ⟨ws ++ us, ⟨ws, us, h1, h4, rfl⟩, by simp; omega, h6⟩
        · rintro ⟨ws, ⟨vs, us, h1, h2, rfl⟩, h3, h4⟩
          simp at h3
          exact ⟨vs, h1, by omega, (key vs h1 (by omega)).2 ⟨us, h2, by omega, h4⟩⟩

/-- the state behind "::" -/
def V6.gap (st : V6) : V6 := { st with pieceIndex := st.pieceIndex + 1, compress := some (st.pieceIndex + 1) }

/-- the groups of a text in which "::" can follow -/
theorem v6Loop_before {env : Env} (he : EnvOK env) (fin : List Nat × Nat × Option Nat) : ∀ (n : Nat) (s : Str) (st : V6),
    s.length ≤ n → st.Inv → st.piece = [] → st.compress = none → s ≠ [] → s.head? ≠ some 58 →
    ((v6Loop env s st).val.map V6.core = some fin ↔
      (∃ ws, V6Groups s ws ∧ st.pieceIndex + ws.length ≤ 8 ∧ (st.after ws false).core = fin) ∨
      ∃ l lw r rw, s = l ++ 58 :: 58 :: r ∧ V6Groups l lw ∧ V6Side r rw ∧ st.pieceIndex + lw.length + 1 + rw.length ≤ 8 ∧
        (r = [] → st.pieceIndex + lw.length + 1 < 8) ∧ ((st.after lw true).gap.after rw false).core = fin) := by
  intro n
  induction n with
  | zero => intro s st hn _ _ _ hne; exact absurd (by simpa using hn) hne
  | succ n ih =>
    intro s st hn hi hpc hcm hne hh
    by_cases h8 : 8 ≤ st.pieceIndex
    · rw [v6Loop_full h8]
      constructor
      · intro h; cases h
      · rintro (⟨ws, h1, h2, -⟩ | ⟨l, lw, r, rw, -, h1, -, h2, -⟩)
        · have := (v6Groups_head h1).2.2; omega
        · omega
    obtain ⟨p, rest, rfl, hp58, hrest⟩ := starts_colon_cases s
    have hpe : p ≠ [] := by
      rintro rfl
      rcases hrest with rfl | hr
      · exact hne rfl
      · exact hh hr
    rcases hrest with rfl | hr
    · rw [List.append_nil]
      simp only [Option.map_eq_some_iff, v6Loop_last_val he hi (Nat.lt_of_not_le h8) hpc hp58 hpe, v6Groups_item hp58]
      constructor
      · rintro ⟨st2, ⟨ws, h1, h2, rfl⟩, h3⟩; exact .inl ⟨ws, h1, h2, h3⟩
      · rintro (⟨ws, h1, h2, h3⟩ | ⟨l, lw, r, rw, h, -⟩)
        · exact ⟨_, ⟨ws, h1, h2, rfl⟩, h3⟩
        · exact absurd (by rw [h]; simp) hp58
    · cases rest with
      | nil => cases hr
      | cons c t =>
        obtain rfl : c = 58 := by simpa using hr
        have key : ∀ ws, V6Item p ws → st.pieceIndex + ws.length ≤ 8 → ((v6Loop env t (st.after ws true)).val.map V6.core = some fin ↔
            (∃ us, V6Groups t us ∧ st.pieceIndex + ws.length + us.length ≤ 8 ∧ (st.after (ws ++ us) false).core = fin) ∨
            (∃ r rw, t = 58 :: r ∧ V6Side r rw ∧ st.pieceIndex + ws.length + 1 + rw.length ≤ 8 ∧
              (r = [] → st.pieceIndex + ws.length + 1 < 8) ∧ ((st.after ws true).gap.after rw false).core = fin) ∨
            ∃ l lw r rw, t = l ++ 58 :: 58 :: r ∧ V6Groups l lw ∧ V6Side r rw ∧
              st.pieceIndex + ws.length + lw.length + 1 + rw.length ≤ 8 ∧
              (r = [] → st.pieceIndex + ws.length + lw.length + 1 < 8) ∧
              ((st.after (ws ++ lw) true).gap.after rw false).core = fin) := by
          intro ws hw hl
          have h3 := (v6Item_no hw).2.2
          cases t with
          | nil =>
            have e : (v6Loop env [] (st.after ws true)).val = none := by
              rw [v6Loop]
              split
              · rfl
              · rw [if_pos (show (st.after ws true).prevColon = true from rfl), if_neg]
                · rfl
                · simp [V6.after, hcm]
            rw [e]
            constructor
            · intro h; cases h
            · rintro (⟨us, h, -⟩ | ⟨r, rw, h, -⟩ | ⟨l, lw, r, rw, h, -⟩)
              · exact absurd rfl (v6Groups_head h).1
              · cases h
              · simp at h
          | cons d t =>
            by_cases hd : d = 58
            · subst hd
              have hR : (∃ us, V6Groups (58 :: t) us ∧ st.pieceIndex + ws.length + us.length ≤ 8 ∧
                  (st.after (ws ++ us) false).core = fin) ↔ False :=
                ⟨fun ⟨us, h, _⟩ => absurd rfl (v6Groups_head h).2.1, False.elim⟩
              have hL : (∃ l lw r rw, 58 :: t = l ++ 58 :: 58 :: r ∧ V6Groups l lw ∧ V6Side r rw ∧
                  st.pieceIndex + ws.length + lw.length + 1 + rw.length ≤ 8 ∧
                  (r = [] → st.pieceIndex + ws.length + lw.length + 1 < 8) ∧
                  ((st.after (ws ++ lw) true).gap.after rw false).core = fin) ↔ False := by
                refine ⟨?_, False.elim⟩
                rintro ⟨l, lw, r, rw, h, h2, -⟩
                obtain ⟨h4, h5, -⟩ := v6Groups_head h2
                cases l with
                | nil => exact h4 rfl
                | cons x l => injection h with h; exact h5 (by rw [h]; rfl)
              rw [hR, hL, false_or, or_false]
              by_cases h7 : 8 ≤ st.pieceIndex + ws.length
              · rw [v6Loop_full (by exact h7)]
                constructor
                · intro h; cases h
                · rintro ⟨r, rw, -, -, h, -⟩; omega
              have e : v6Loop env (58 :: t) (st.after ws true) = v6Loop env t (st.after ws true).gap := by
                rw [v6Loop, if_neg (by exact h7), if_neg (by simp), if_pos (show (st.after ws true).prevColon = true from rfl), if_neg (by simp [V6.after, hcm])]
                rfl
              rw [e]
              have hgi : (st.after ws true).gap.Inv := by
                have := V6.after_inv (b := true) hi (v6Item_small hw) hl
                refine ⟨this.len, this.small, ?_, ?_⟩
                · simp only [V6.gap, V6.after]; omega
                · intro k hk; injection hk with hk; simp only [V6.gap] at hk ⊢; omega
              cases t with
              | nil =>
                by_cases h9 : 8 ≤ st.pieceIndex + ws.length + 1
                · rw [v6Loop_full (by exact h9)]
                  constructor
                  · intro h; cases h
                  · rintro ⟨r, rw, h, -, -, h2, -⟩
                    injection h with _ h
                    have := h2 h.symm
                    omega
                · have e2 : v6Loop env [] (st.after ws true).gap = .ok (st.after ws true).gap := by
                    rw [v6Loop, if_neg (by exact h9), if_pos (show (st.after ws true).gap.prevColon = true from rfl), if_pos]
                    simp [V6.gap]
                  rw [e2]
                  constructor
                  · intro h
                    injection h with h
                    refine ⟨[], [], rfl, .inl ⟨rfl, rfl⟩, by simp; omega, fun _ => by omega, h⟩
                  · rintro ⟨r, rw, h, h1, -, -, h2⟩
                    injection h with _ h
                    subst h
                    rcases h1 with ⟨-, rfl⟩ | h1
                    · rw [← h2]; rfl
                    · exact absurd rfl (v6Groups_head h1).1
              | cons d t =>
                by_cases hd : d = 58
                · subst hd
                  have e2 : (v6Loop env (58 :: t) (st.after ws true).gap).val = none := by
                    rw [v6Loop]
                    split
                    · rfl
                    · rw [if_neg (by simp), if_pos (show (st.after ws true).gap.prevColon = true from rfl),
                        if_pos (show (st.after ws true).gap.compress.isSome = true from rfl)]; rfl
                  rw [e2]
                  constructor
                  · intro h; cases h
                  · rintro ⟨r, rw, h, h1, -⟩
                    injection h with _ h
                    subst h
                    rcases h1 with ⟨h1, -⟩ | h1
                    · cases h1
                    · exact absurd rfl (v6Groups_head h1).2.1
                · simp only [Option.map_eq_some_iff, v6Loop_behind he (d :: t).length (d :: t) (st.after ws true).gap _ (Nat.le_refl _) hgi rfl rfl
                    (by simp) (by simpa using hd)]
                  constructor
                  · rintro ⟨st2, ⟨us, h1, h2, rfl⟩, h4⟩
                    exact ⟨d :: t, us, rfl, .inr h1, h2, (fun h => by cases h), h4⟩
                  · rintro ⟨r, rw, h, h1, h2, -, h4⟩
                    injection h with _ h
                    subst h
                    rcases h1 with ⟨h1, -⟩ | h1
                    · cases h1
                    · exact ⟨_, ⟨rw, h1, h2, rfl⟩, h4⟩
            · rw [ih (d :: t) (st.after ws true) (by simp at hn ⊢; omega) (V6.after_inv hi (v6Item_small hw) hl) rfl hcm
                (by simp) (by simpa using hd)]
              simp only [V6.after_after]
              have hM : (∃ r rw, d :: t = 58 :: r ∧ V6Side r rw ∧ st.pieceIndex + ws.length + 1 + rw.length ≤ 8 ∧
                  (r = [] → st.pieceIndex + ws.length + 1 < 8) ∧ ((st.after ws true).gap.after rw false).core = fin) ↔ False :=
                ⟨fun ⟨r, rw, h, _⟩ => by injection h with h; exact hd h, False.elim⟩
              rw [hM, false_or]
              rfl
        have step : (v6Loop env (p ++ 58 :: t) st).val.map V6.core = some fin ↔
            ∃ ws, V6Item p ws ∧ st.pieceIndex + ws.length ≤ 8 ∧ (v6Loop env t (st.after ws true)).val.map V6.core = some fin := by
          simp only [Option.map_eq_some_iff, v6Loop_group_val he hi (Nat.lt_of_not_le h8) hpc hp58 hpe]
          constructor
          · rintro ⟨st2, ⟨ws, h1, h2, h3⟩, h4⟩; exact ⟨ws, h1, h2, st2, h3, h4⟩
          · rintro ⟨ws, h1, h2, st2, h3, h4⟩; exact ⟨st2, ⟨ws, h1, h2, h3⟩, h4⟩
        rw [step]
        constructor
        · rintro ⟨ws, h1, h2, h3⟩
          rcases (key ws h1 h2).1 h3 with ⟨us, h4, h5, h6⟩ | ⟨r, rw, rfl, h4, h5, h6, h7⟩ | ⟨l, lw, r, rw, rfl, h4, h5, h6, h7, h9⟩
          · exact .inl ⟨ws ++ us, (v6Groups_cons hp58).2 ⟨ws, us, h1, h4, rfl⟩, by simp; omega, h6⟩
          · exact .inr ⟨p, ws, r, rw, rfl, .one h1, h4, h5, h6, h7⟩
          · exact .inr ⟨p ++ 58 :: l, ws ++ lw, r, rw, by simp, (v6Groups_cons hp58).2 ⟨ws, lw, h1, h4, rfl⟩, h5,
              by simp; omega, fun h => by have := h7 h; simp; omega, h9⟩
        · rintro (⟨ws, h1, h2, h3⟩ | ⟨l, lw, r, rw, hs, h1, h2, h3, h4, h5⟩)
          · obtain ⟨vs, us, h4, h5, rfl⟩ := (v6Groups_cons hp58).1 h1
            simp at h2
            exact ⟨vs, h4, by omega, (key vs h4 (by omega)).2 (.inl ⟨us, h5, by omega, h3⟩)⟩
          · obtain ⟨q, rest, vs, rfl, hq, hr⟩ := v6Groups_cases h1
            have hq58 := (v6Item_no hq).1
            rcases hr with ⟨rfl, rfl⟩ | ⟨u, us, rfl, hu, rfl⟩
            · obtain ⟨rfl, e⟩ := colon_split hp58 hq58 (.inr rfl) (.inr rfl) (by simpa using hs)
              injection e with _ e
              exact ⟨_, hq, by omega, (key _ hq (by omega)).2 (.inr (.inl ⟨r, rw, e, h2, h3, h4, h5⟩))⟩
            · obtain ⟨rfl, e⟩ := colon_split hp58 hq58 (rest' := 58 :: (u ++ 58 :: 58 :: r)) (.inr rfl) (.inr rfl) (by simpa using hs)
              injection e with _ e
              simp at h3 h4
              exact ⟨vs, hq, by omega, (key vs hq (by omega)).2 (.inr (.inr ⟨u, us, r, rw, e, hu, h2, by omega,
                fun h => by have := h4 h; omega, h5⟩))⟩

theorem v6_assemble7 (pre post : List Nat) (h : pre.length + post.length ≤ 7) :
    v6Finish (((({} : V6).after pre true).gap).after post false) =
      .ok (pre ++ List.replicate (8 - pre.length - post.length) 0 ++ post) := by
  by_cases h6 : pre.length + post.length ≤ 6
  · have := v6_assemble pre post h6 false []
    rw [List.append_assoc, ← this]
    simp only [V6.after, V6.gap, Nat.zero_add]
  · have h7 : pre.length + post.length = 7 := by omega
    rcases pre with _ | ⟨a0, _ | ⟨a1, _ | ⟨a2, _ | ⟨a3, _ | ⟨a4, _ | ⟨a5, _ | ⟨a6, _ | ⟨a7, as⟩⟩⟩⟩⟩⟩⟩⟩ <;> rcases post with _ | ⟨b0, _ | ⟨b1, _ | ⟨b2, _ | ⟨b3, _ | ⟨b4, _ | ⟨b5, _ | ⟨b6, _ | ⟨b7, bs⟩⟩⟩⟩⟩⟩⟩⟩ <;> first
      | (exfalso; simp at h7; done)
      | (exfalso; simp at h7; omega)
      | simp [v6Finish, V6.after, V6.gap, setMany, v6Swap]

theorem v6Finish_full {ws a : List Nat} : (v6Finish (({} : V6).after ws false)).val = some a ↔ ws.length = 8 ∧ a = ws := by
  unfold v6Finish
  rw [show (({} : V6).after ws false).compress = none from rfl,
    show (({} : V6).after ws false).pieceIndex = ws.length from Nat.zero_add _]
  dsimp only
  by_cases h : ws.length = 8
  · rw [if_neg (by simpa using h), show (({} : V6).after ws false).addr = ws from setMany_all h]
    constructor
    · intro h2; injection h2 with h2; exact ⟨h, h2.symm⟩
    · rintro ⟨-, rfl⟩; rfl
  · rw [if_pos (by simpa using h)]
    constructor
    · intro h2; cases h2
    · rintro ⟨h2, -⟩; exact absurd h2 h

theorem v6Init_inv : ({} : V6).Inv :=
  ⟨rfl, by intro v hv; simp at hv; omega, by decide, by intro c hc; cases hc⟩

theorem v6Run_core {env : Env} {s : Str} {st : V6} {a : List Nat} : (v6Run env s st).val = some a ↔
    ∃ st' : V6, (v6Loop env s st).val.map V6.core = some st'.core ∧ (v6Finish st').val = some a := by
  rw [v6Run_val]
  cases h : (v6Loop env s st).val with
  | none => simp
  | some st2 =>
    simp only [Option.bind_some, Option.map_some, Option.some.injEq]
    constructor
    · intro h; exact ⟨st2, rfl, h⟩
    · rintro ⟨st3, h1, h2⟩; rw [v6Finish_congr h1]; exact h2

theorem v6Item_zero {ws : List Nat} : V6Item u!"0" ws ↔ ws = [0] := by
  constructor
  · intro h
    generalize hq : u!"0" = q at h
    cases h with
    | hex _ v h1 h4 hr => 
      rw [← hq] at hr
      have : Spec.radixValue 16 0 u!"0" = some 0 := by decide
      rw [this] at hr
      injection hr with hr
      rw [← hr]
    | quad n hn =>
      exfalso
      have : (46 : Nat) ∈ u!"0" := by rw [hq, dotted_natDec]; simp
      revert this; decide
  · rintro rfl; exact .hex _ _ (by decide) (by decide) rfl

/-- The parser accepts exactly the texts of the grammar. -/
theorem ipv6Parse_iff {env : Env} (he : EnvOK env) {s : Str} {a : List Nat} :
    (ipv6Parse env s).val = some a ↔ V6Text s a := by
  have hgi : ({ pieceIndex := 1, compress := some 1 } : V6).Inv :=
    ⟨rfl, by intro v hv; simp at hv; omega, by decide, by intro c hc; injection hc with hc; subst hc; decide⟩
  have behind : ∀ t : Str, t ≠ [] → t.head? ≠ some 58 →
      ((ipv6Parse env (58 :: 58 :: t)).val = some a ↔ ∃ ws, V6Groups t ws ∧ ws.length ≤ 7 ∧
        a = List.replicate (8 - ws.length) 0 ++ ws) := by
    intro t h1 h2
    rw [ipv6Parse_colons, v6Run_val, Option.bind_eq_some_iff]
    simp only [v6Loop_behind he t.length t _ _ (Nat.le_refl _) hgi rfl rfl h1 h2]
    have e : ∀ ws : List Nat, ws.length ≤ 7 → v6Finish (({ pieceIndex := 1, compress := some 1 } : V6).after ws false) =
        .ok (List.replicate (8 - ws.length) 0 ++ ws) := by
      intro ws h
      have := v6_assemble7 [] ws (by simpa using h)
      rw [List.nil_append] at this
      refine Eq.trans (v6Finish_congr ?_) this
      rfl
    constructor
    · rintro ⟨st, ⟨ws, h3, h4, rfl⟩, h5⟩
      have h7 : ws.length ≤ 7 := by omega
      rw [e ws h7] at h5
      injection h5 with h5
      exact ⟨ws, h3, h7, h5.symm⟩
    · rintro ⟨ws, h3, h4, rfl⟩
      exact ⟨_, ⟨ws, h3, by omega, rfl⟩, by rw [e ws h4]; rfl⟩
  have front : ∀ s : Str, s ≠ [] → s.head? ≠ some 58 → ((ipv6Parse env s).val = some a ↔
      (V6Groups s a ∧ a.length = 8) ∨ ∃ l lw r rw, s = l ++ 58 :: 58 :: r ∧ V6Groups l lw ∧ V6Side r rw ∧
        lw.length + rw.length ≤ 7 ∧ (r = [] → lw.length ≤ 6) ∧
        a = lw ++ List.replicate (8 - lw.length - rw.length) 0 ++ rw) := by
    intro s h1 h2
    have e : ipv6Parse env s = v6Run env s {} := by
      cases s with
      | nil => exact absurd rfl h1
      | cons c t => exact ipv6Parse_nocolon env t (by simpa using h2)
    rw [e, v6Run_core]
    simp only [v6Loop_before he _ s.length s {} (Nat.le_refl _) v6Init_inv rfl rfl h1 h2]
    constructor
    · rintro ⟨st, ⟨ws, h3, h4, h5⟩ | ⟨l, lw, r, rw, h3, h4, h5, h6, h7, h8⟩, h9⟩
      · left
        rw [← v6Finish_congr h5] at h9
        obtain ⟨h8, rfl⟩ := v6Finish_full.1 h9
        exact ⟨h3, h8⟩
      · right
        rw [← v6Finish_congr h8, v6_assemble7 lw rw (by omega)] at h9
        injection h9 with h9
        exact ⟨l, lw, r, rw, h3, h4, h5, by omega, fun h => by have := h7 h; omega, h9.symm⟩
    · rintro (⟨h3, h4⟩ | ⟨l, lw, r, rw, h3, h4, h5, h6, h7, h8⟩)
      · exact ⟨_, .inl ⟨a, h3, by omega, rfl⟩, v6Finish_full.2 ⟨h4, rfl⟩⟩
      · refine ⟨_, .inr ⟨l, lw, r, rw, h3, h4, h5, by omega, fun h => by have := h7 h; omega, rfl⟩, ?_⟩
        rw [v6_assemble7 lw rw h6, h8]
        rfl
  have triple : ∀ t : Str, (ipv6Parse env (58 :: 58 :: 58 :: t)).val = some a ↔ ∃ ws, V6Groups t ws ∧ ws.length ≤ 6 ∧
        a = List.replicate (8 - ws.length) 0 ++ ws := by
    intro t
    have e : ipv6Parse env (58 :: 58 :: 58 :: t) = ipv6Parse env (58 :: 58 :: 48 :: 58 :: t) := ipv6Parse_triple env t
    rw [e, behind (48 :: 58 :: t) (by simp) (by simp)]
    have hz : ∀ ws, V6Groups (48 :: 58 :: t) ws ↔ ∃ us, V6Groups t us ∧ ws = 0 :: us := by
      intro ws
      rw [show 48 :: 58 :: t = u!"0" ++ 58 :: t from rfl, v6Groups_cons (by decide)]
      constructor
      · rintro ⟨vs, us, h1, h2, rfl⟩
        rw [v6Item_zero.1 h1]
        exact ⟨us, h2, rfl⟩
      · rintro ⟨us, h, rfl⟩; exact ⟨[0], us, v6Item_zero.2 rfl, h, rfl⟩
    have er : ∀ us : List Nat, us.length ≤ 6 →
        List.replicate (8 - (0 :: us).length) 0 ++ 0 :: us = List.replicate (8 - us.length) 0 ++ us := by
      intro us hu
      have : 8 - us.length = (8 - (us.length + 1)) + 1 := by omega
      rw [List.length_cons, this, List.replicate_succ']
      simp
    constructor
    · rintro ⟨ws, h1, h2, rfl⟩
      obtain ⟨us, h3, rfl⟩ := (hz ws).1 h1
      simp at h2
      exact ⟨us, h3, h2, er us h2⟩
    · rintro ⟨us, h1, h2, rfl⟩
      exact ⟨0 :: us, (hz _).2 ⟨us, h1, rfl⟩, by simpa using h2, (er us h2).symm⟩
  have dbl : (ipv6Parse env [58, 58]).val = some (List.replicate 8 0) := rfl
  constructor
  · intro h
    match s with
    | [] => cases h
    | [58] => cases h
    | [58, 58] =>
      rw [dbl] at h
      injection h with h
      subst h
      exact V6Text.compressed (.inl ⟨rfl, rfl⟩) (.inl ⟨rfl, rfl⟩) (by simp) (by simp)
    | c :: t =>
      by_cases hc : c = 58
      · subst hc
        cases t with
        | nil => cases h
        | cons d t =>
          by_cases hd : d = 58
          · subst hd
            cases t with
            | nil =>
              rw [dbl] at h
              injection h with h
              subst h
              exact V6Text.compressed (l := []) (r := []) (.inl ⟨rfl, rfl⟩) (.inl ⟨rfl, rfl⟩) (by simp) (by simp)
            | cons d t =>
              by_cases hd : d = 58
              · subst hd
                obtain ⟨ws, h1, h2, rfl⟩ := (triple t).1 h
                exact .triple h1 h2
              · obtain ⟨ws, h1, h2, rfl⟩ := (behind (d :: t) (by simp) (by simpa using hd)).1 h
                have := V6Text.compressed (.inl ⟨rfl, rfl⟩) (.inr h1) (by simpa using h2) (by simp)
                simpa using this
          · rw [ipv6Parse_onecolon env hd] at h; cases h
      · rcases (front (c :: t) (by simp) (by simpa using hc)).1 h with ⟨h1, h2⟩ | ⟨l, lw, r, rw, h1, h2, h3, h4, h5, h6⟩
        · exact .full h1 h2
        · rw [h1, h6]
          have := V6Text.compressed (.inr h2) h3 h4 h5
          simpa using this
  · intro h
    cases h with
    | full h h8 =>
      obtain ⟨h1, h2, -⟩ := v6Groups_head h
      exact (front s h1 h2).2 (.inl ⟨h, h8⟩)
    | @compressed l r lw rw hl hr h7 h6 =>
      have e : l ++ u!"::" ++ r = l ++ 58 :: 58 :: r := by simp
      rw [e]
      rcases hl with ⟨rfl, rfl⟩ | hl
      · rcases hr with ⟨rfl, rfl⟩ | hr
        · exact dbl
        · obtain ⟨h1, h2, -⟩ := v6Groups_head hr
          exact (behind r h1 h2).2 ⟨rw, hr, by simpa using h7, by simp⟩
      · obtain ⟨h1, h2, -⟩ := v6Groups_head hl
        refine (front _ (by simp) ?_).2 (.inr ⟨l, lw, r, rw, rfl, hl, hr, h7, h6, rfl⟩)
        cases l with
        | nil => exact absurd rfl h1
        | cons c l => exact h2
    | @triple r rw hr h6 => exact (triple r).2 ⟨rw, hr, h6, rfl⟩

end Urlstd
