/-
Lemmas on IPv6 serialization and the round trip.
-/
import Verif.Host
import Verif.Spec.Host
import Verif.Lemmas.Num
import Verif.Lemmas.Str

namespace Urlstd

open Spec (hexText hexColons ZeroRun FirstLongestZeroRun IsV6)

/-! ### Hexadecimal text -/

theorem hexDigitLower_eq {d : Nat} (h : d < 16) :
    hexDigitLower d = u!"0123456789abcdef".getD d 0 := by
  have : d = 0 ∨ d = 1 ∨ d = 2 ∨ d = 3 ∨ d = 4 ∨ d = 5 ∨ d = 6 ∨ d = 7 ∨ d = 8 ∨ d = 9 ∨ d = 10 ∨
    d = 11 ∨ d = 12 ∨ d = 13 ∨ d = 14 ∨ d = 15 := by omega
  rcases this with h|h|h|h|h|h|h|h|h|h|h|h|h|h|h|h <;> subst h <;> rfl

theorem natHex_eq (n : Nat) : natHex n = hexText n := by
  suffices H : ∀ fuel n, n ≤ fuel → toDigitsAux 16 hexDigitLower fuel n = hexText n from
    H n n (Nat.le_refl n)
  intro fuel
  induction fuel with
  | zero =>
    intro n hn
    have : n = 0 := by omega
    subst this
    unfold hexText; rfl
  | succ f ih =>
    intro n hn
    unfold hexText
    rw [toDigitsAux]
    split
    · rename_i h; rw [hexDigitLower_eq h]
    · rename_i h
      rw [ih (n / 16) (by omega), hexDigitLower_eq (by omega)]

theorem getD_lt {l : List Nat} {n : Nat} (d : Nat) (h : n < l.length) : l.getD n d = l[n] := by
  simp [List.getD_eq_getElem?_getD, h]

/-! ### The search for the longest run -/

/-- zero pattern -/
def v6Pat (a : List Nat) : List Nat := a.map fun v => if v = 0 then 0 else 1

theorem v6FindCompress_pat (a : List Nat) : ∀ i c s m l,
    v6FindCompress (v6Pat a) i c s m l = v6FindCompress a i c s m l := by
  induction a with
  | nil => intros; rfl
  | cons v vs ih =>
    intro i c s m l
    have ih' := ih
    unfold v6Pat at ih' ⊢
    rw [List.map_cons]
    conv => lhs; unfold v6FindCompress
    conv => rhs; unfold v6FindCompress
    by_cases hv : v = 0
    · simp only [hv, if_true, ih']
    · simp only [hv, if_false, ih', Nat.one_ne_zero]

theorem zeroRun_pat (a : List Nat) (i n : Nat) : ZeroRun (v6Pat a) i n ↔ ZeroRun a i n := by
  unfold ZeroRun v6Pat
  rw [List.length_map]
  constructor
  · rintro ⟨h1, h2⟩
    refine ⟨h1, fun j hj => ?_⟩
    have := h2 j hj
    rw [getD_lt _ (by simp; omega), List.getElem_map] at this
    rw [getD_lt _ (by omega)]
    split at this
    · assumption
    · omega
  · rintro ⟨h1, h2⟩
    refine ⟨h1, fun j hj => ?_⟩
    have := h2 j hj
    rw [getD_lt _ (by omega)] at this
    rw [getD_lt _ (by simp; omega), List.getElem_map, if_pos this]

/-- decision procedure for `ZeroRun` -/
def zr (a : List Nat) (i n : Nat) : Bool :=
  decide (i + n ≤ a.length) && (List.range n).all fun j => a.getD (i + j) 1 == 0

theorem zr_iff {a : List Nat} {i n : Nat} : zr a i n = true ↔ ZeroRun a i n := by
  unfold zr ZeroRun
  simp only [Bool.and_eq_true, decide_eq_true_eq, List.all_eq_true, List.mem_range, beq_iff_eq]

/-- the outcome of the search on a zero pattern, in bounded form -/
def findCheck (a : List Nat) : Bool :=
  match v6FindCompress a 0 none none 1 0 with
  | none => (List.range 8).all fun i => !zr a i 2
  | some i => (List.range 9).any fun n => decide (2 ≤ n) && zr a i n &&
      ((List.range 9).all fun j => (List.range 9).all fun m => !zr a j m || decide (m ≤ n)) &&
      (List.range i).all fun j => !zr a j n

theorem findCheck_all : ∀ b0 b1 b2 b3 b4 b5 b6 b7 : Bool,
    findCheck ([b0, b1, b2, b3, b4, b5, b6, b7].map fun b => if b then 0 else 1) = true := by
  decide +kernel

theorem findCheck_pat {a : List Nat} (h : a.length = 8) : findCheck (v6Pat a) = true := by
  match a, h with
  | [a0, a1, a2, a3, a4, a5, a6, a7], _ =>
    have := findCheck_all (decide (a0 = 0)) (decide (a1 = 0)) (decide (a2 = 0)) (decide (a3 = 0))
      (decide (a4 = 0)) (decide (a5 = 0)) (decide (a6 = 0)) (decide (a7 = 0))
    simpa [v6Pat] using this

theorem ZeroRun.shorter {a : List Nat} {i n m : Nat} (h : ZeroRun a i n) (hm : m ≤ n) : ZeroRun a i m :=
  ⟨by have := h.1; omega, fun j hj => h.2 j (by omega)⟩

theorem v6FindCompress_none {a : List Nat} (h : a.length = 8)
    (hc : v6FindCompress a 0 none none 1 0 = none) : ∀ i n, 2 ≤ n → ¬ ZeroRun a i n := by
  have hk := findCheck_pat h
  unfold findCheck at hk
  rw [v6FindCompress_pat, hc] at hk
  simp only [List.all_eq_true, List.mem_range, Bool.not_eq_true'] at hk
  intro i n hn hz
  have := hz.1
  have h1 := zr_iff.2 ((zeroRun_pat a i 2).2 (ZeroRun.shorter hz hn))
  rw [hk i (by omega)] at h1
  cases h1

theorem v6FindCompress_some {a : List Nat} (h : a.length = 8) {i : Nat}
    (hc : v6FindCompress a 0 none none 1 0 = some i) : ∃ n, FirstLongestZeroRun a i n := by
  have hk := findCheck_pat h
  unfold findCheck at hk
  rw [v6FindCompress_pat, hc] at hk
  simp only [List.any_eq_true, List.all_eq_true, List.mem_range, Bool.not_eq_true', Bool.and_eq_true,
    Bool.or_eq_true, decide_eq_true_eq, zr_iff, zeroRun_pat] at hk
  obtain ⟨n, _, ⟨⟨h2, h3⟩, h4⟩, h5⟩ := hk
  refine ⟨n, h2, h3, fun j m hz => ?_, fun j hj hz => ?_⟩
  · rcases h4 j (by have := hz.1; omega) m (by have := hz.1; omega) with h6 | h6
    · rw [zr_iff.2 ((zeroRun_pat a j m).2 hz)] at h6; cases h6
    · exact h6
  · have h6 := h5 j hj
    rw [zr_iff.2 ((zeroRun_pat a j n).2 hz)] at h6; cases h6

theorem firstLongest_unique {a : List Nat} {i n j m : Nat} (h1 : FirstLongestZeroRun a i n)
    (h2 : FirstLongestZeroRun a j m) : i = j ∧ n = m := by
  have e : n = m := Nat.le_antisymm (h2.2.2.1 i n h1.2.1) (h1.2.2.1 j m h2.2.1)
  subst e
  refine ⟨?_, rfl⟩
  rcases Nat.lt_trichotomy i j with h | h | h
  · exact absurd h1.2.1 (h2.2.2.2 i h)
  · exact h
  · exact absurd h2.2.1 (h1.2.2.2 j h)

/-! ### The output loop -/

theorem v6Out_plain (c : Option Nat) (vs : List Nat) : ∀ (i : Nat) (out : Str), vs ≠ [] →
    i + vs.length = 8 → (∀ k, k < vs.length → c ≠ some (i + k)) →
    v6Out c vs i false out = out ++ hexColons vs := by
  induction vs with
  | nil => intro i out h; exact absurd rfl h
  | cons v vs ih =>
    intro i out _ hl hc
    have hci : (c == some i) = false := by
      have := hc 0 (by simp)
      simpa using this
    rw [v6Out]
    simp only [Bool.false_and, Bool.false_eq_true, if_false, hci]
    cases vs with
    | nil =>
      simp at hl
      subst hl
      simp [v6Out, hexColons, natHex_eq]
    | cons w ws =>
      simp only [List.length_cons] at hl
      rw [if_pos (by omega), ih (i + 1) _ (by simp) (by simp; omega) (by
        intro k hk
        have := hc (k + 1) (by simp at hk ⊢; omega)
        rwa [show i + (k + 1) = i + 1 + k by omega] at this)]
      simp [hexColons, natHex_eq]

theorem v6Out_prefix (c : Nat) (hc : c ≤ 7) (pre rest : List Nat) : ∀ (i : Nat) (out : Str),
    i + pre.length = c →
    v6Out (some c) (pre ++ rest) i false out =
      v6Out (some c) rest c false (out ++ pre.flatMap fun v => hexText v ++ u!":") := by
  induction pre with
  | nil => intro i out h; simp at h; subst h; simp
  | cons v vs ih =>
    intro i out h
    simp only [List.length_cons] at h
    rw [List.cons_append, v6Out]
    have hci : (some c == some i) = false := by simp; omega
    simp only [Bool.false_and, Bool.false_eq_true, if_false, hci]
    rw [if_pos (by omega), ih (i + 1) _ (by omega)]
    simp [natHex_eq]

theorem v6Out_zeros (c : Nat) (k : Nat) (post : List Nat) : ∀ (i : Nat) (out : Str),
    v6Out (some c) (List.replicate k 0 ++ post) i true out = v6Out (some c) post (i + k) true out := by
  induction k with
  | zero => intro i out; rfl
  | succ k ih =>
    intro i out
    rw [List.replicate_succ, List.cons_append, v6Out]
    simp only [beq_self_eq_true, Bool.and_true, if_true]
    rw [ih, show i + 1 + k = i + (k + 1) by omega]

theorem v6Out_compress (c n : Nat) (hn : 1 ≤ n) (post : List Nat) (out : Str)
    (hl : c + n + post.length = 8) (hp : ∀ v t, post = v :: t → v ≠ 0) :
    v6Out (some c) (List.replicate n 0 ++ post) c false out =
      out ++ (if c = 0 then u!"::" else u!":") ++ hexColons post := by
  cases n with
  | zero => omega
  | succ k =>
    rw [List.replicate_succ, List.cons_append, v6Out]
    simp only [Bool.false_and, Bool.false_eq_true, if_false, beq_self_eq_true, if_true]
    rw [v6Out_zeros]
    cases post with
    | nil => simp [v6Out, hexColons]
    | cons v vs =>
      have hv := hp v vs rfl
      have hb : (v == 0) = false := by simpa using hv
      have : ∀ o, v6Out (some c) (v :: vs) (c + 1 + k) true o = v6Out (some c) (v :: vs) (c + 1 + k) false o := by
        intro o
        rw [v6Out, v6Out]
        simp only [hb, Bool.and_false]
      rw [this, v6Out_plain _ _ _ _ (by simp) (by omega)]
      intro k' _
      simp; omega

theorem hexColons_prefix (pre : List Nat) (h : pre ≠ []) :
    (pre.flatMap fun v => hexText v ++ u!":") = hexColons pre ++ u!":" := by
  induction pre with
  | nil => exact absurd rfl h
  | cons v vs ih =>
    cases vs with
    | nil => simp [hexColons]
    | cons w ws => rw [List.flatMap_cons, ih (by simp)]; simp [hexColons]

/-- cutting an address at its zero run -/
theorem zeroRun_split {a : List Nat} {i n : Nat} (h : ZeroRun a i n) :
    a = a.take i ++ (List.replicate n 0 ++ a.drop (i + n)) := by
  have h1 : (a.drop i).take n = List.replicate n 0 := by
    apply List.ext_getElem
    · simp; have := h.1; omega
    · intro k hk1 hk2
      simp only [List.length_replicate] at hk2
      have := h.2 k hk2
      rw [getD_lt _ (by have := h.1; omega)] at this
      simp [this]
  conv => lhs; rw [← List.take_append_drop i a]
  rw [← List.take_append_drop n (a.drop i), h1, List.drop_drop]

theorem ipv6Serialize_run {a : List Nat} (h : a.length = 8) {i n : Nat} (hr : FirstLongestZeroRun a i n) :
    ipv6Serialize a = hexColons (a.take i) ++ u!"::" ++ hexColons (a.drop (i + n)) := by
  unfold ipv6Serialize
  cases hc : v6FindCompress a 0 none none 1 0 with
  | none => exact absurd hr.2.1 (v6FindCompress_none h hc i n hr.1)
  | some c =>
    obtain ⟨m, hm⟩ := v6FindCompress_some h hc
    obtain ⟨rfl, rfl⟩ := firstLongest_unique hr hm
    have hle := hr.2.1.1
    have h2 := hr.1
    have hsplit := zeroRun_split hr.2.1
    conv => lhs; rw [hsplit]
    rw [v6Out_prefix i (by omega) (a.take i) _ 0 [] (by simp; omega)]
    rw [v6Out_compress i n (by omega) _ _ (by simp; omega)]
    · by_cases hi : i = 0
      · subst hi; simp [hexColons]
      · rw [if_neg hi, hexColons_prefix]
        · simp
        · intro e
          have := congrArg List.length e
          rw [List.length_take, List.length_nil] at this
          omega
    · -- the run is maximal, so a non-zero piece follows
      intro v t e hv
      subst hv
      have hlen : i + n < a.length := by
        have := congrArg List.length e
        simp at this; omega
      have h0 : a.getD (i + n) 1 = 0 := by
        rw [getD_lt _ hlen]
        have : (a.drop (i + n))[0]'(by rw [e]; simp) = 0 := by simp [e]
        simpa using this
      have : ZeroRun a i (n + 1) := by
        refine ⟨by omega, fun j hj => ?_⟩
        by_cases hjn : j < n
        · exact hr.2.1.2 j hjn
        · rw [show j = n by omega]; exact h0
      have := hr.2.2.1 i (n + 1) this
      omega

theorem ipv6Serialize_plain {a : List Nat} (h : a.length = 8) (hr : ∀ i n, 2 ≤ n → ¬ ZeroRun a i n) :
    ipv6Serialize a = hexColons a := by
  unfold ipv6Serialize
  cases hc : v6FindCompress a 0 none none 1 0 with
  | some c =>
    obtain ⟨m, hm⟩ := v6FindCompress_some h hc
    exact absurd hm.2.1 (hr c m hm.1)
  | none =>
    rw [v6Out_plain _ _ _ _ (by intro e; rw [e] at h; simp at h) (by omega) (by simp)]
    rfl

/-! ### The parser loop on pieces -/

theorem v6Loop_read (env : Env) (p : Str) (hp : 58 ∉ p) (hne : p ≠ []) (rest : Str) : ∀ (st : V6),
    st.pieceIndex < 8 →
    v6Loop env (p ++ rest) st =
      v6Loop env rest { st with piece := st.piece ++ p, prevColon := false } := by
  induction p with
  | nil => exact absurd rfl hne
  | cons c cs ih =>
    intro st hst
    simp at hp
    rw [List.cons_append, v6Loop, if_neg (by omega), if_pos (Ne.symm hp.1)]
    cases cs with
    | nil => simp
    | cons d ds =>
      have := ih hp.2 (by simp) { st with piece := st.piece ++ [c], prevColon := false } hst
      rw [this]
      simp

theorem hexPiece {env : Env} {p : Str} (hx : ∀ c ∈ p, isHex c = true) (hne : p ≠ []) (hl : p.length ≤ 4)
    (st : V6) (hst : st.piece = p) (hi : st.pieceIndex < st.addr.length) (b : Bool) :
    v6Piece env st b = .ok { st with
      addr := st.addr.set st.pieceIndex (numVal 16 p), pieceIndex := st.pieceIndex + 1, piece := [],
      prevColon := b } := by
  have h1 : p.isEmpty = false := by cases p <;> simp_all
  have h2 : p.contains 46 = false := by
    rw [List.contains_eq_mem]
    simp only [decide_eq_false_iff_not]
    intro h
    exact absurd (hx 46 h) (by decide)
  have h3 : (decide (p.length > 4) || p.any (!isHex ·)) = false := by
    simp only [Bool.or_eq_false_iff, decide_eq_false_iff_not, List.any_eq_false, Bool.not_eq_true',
      Bool.not_eq_false]
    exact ⟨by omega, hx⟩
  unfold v6Piece
  rw [hst]
  simp only [h1, h2, h3, Bool.false_eq_true, if_false, Bool.not_false, if_true]
  rw [pyInt_numeral env (by omega) (fun c hc => digitValue_lt16.2 (hx c hc)) hne (fun h => by omega)]
  simp only [if_pos hi]
  rfl

theorem isHex_of_natHex {n c : Nat} (h : c ∈ natHex n) : isHex c = true :=
  digitValue_lt16.1 (natHex_numeral n c h)

theorem hexText_props {v : Nat} (hv : v < 65536) :
    (∀ c ∈ hexText v, isHex c = true) ∧ hexText v ≠ [] ∧ (hexText v).length ≤ 4 ∧ 58 ∉ hexText v ∧
    numVal 16 (hexText v) = v := by
  rw [← natHex_eq]
  refine ⟨fun c hc => isHex_of_natHex hc, natHex_ne_nil v, natHex_length (k := 4) (by omega) (by omega), ?_,
    natHex_val v⟩
  intro h
  exact absurd (isHex_of_natHex h) (by decide)

/-- write `vs` from index `i` on -/
def setMany (a : List Nat) (i : Nat) : List Nat → List Nat
  | [] => a
  | v :: vs => setMany (a.set i v) (i + 1) vs

theorem setMany_length (vs : List Nat) : ∀ a i, (setMany a i vs).length = a.length := by
  induction vs with
  | nil => intros; rfl
  | cons v vs ih => intro a i; rw [setMany, ih, List.length_set]

/-- one piece and the colon behind it -/
theorem v6Loop_piece_colon (env : Env) {v : Nat} (hv : v < 65536) (rest : Str) (st : V6)
    (hst : st.piece = []) (hi : st.pieceIndex < 8) (hl : st.addr.length = 8) :
    v6Loop env (hexText v ++ 58 :: rest) st = v6Loop env rest { st with
      addr := st.addr.set st.pieceIndex v, pieceIndex := st.pieceIndex + 1, piece := [],
      prevColon := true } := by
  obtain ⟨h1, h2, h3, h4, h5⟩ := hexText_props hv
  rw [v6Loop_read env _ h4 h2 _ _ hi, v6Loop]
  simp only
  rw [if_neg (by omega), if_neg (by simp)]
  simp only [Bool.false_eq_true, if_false]
  rw [hexPiece h1 h2 h3 _ (by simp [hst]) (by simp only; omega)]
  simp only [Res.ok, h5]

theorem v6Loop_piece_end (env : Env) {v : Nat} (hv : v < 65536) (st : V6)
    (hst : st.piece = []) (hi : st.pieceIndex < 8) (hl : st.addr.length = 8) :
    v6Loop env (hexText v) st = .ok { st with
      addr := st.addr.set st.pieceIndex v, pieceIndex := st.pieceIndex + 1, piece := [],
      prevColon := false } := by
  obtain ⟨h1, h2, h3, h4, h5⟩ := hexText_props hv
  conv => lhs; rw [← List.append_nil (hexText v)]
  rw [v6Loop_read env _ h4 h2 _ _ hi, v6Loop]
  simp only
  rw [if_neg (by omega)]
  simp only [Bool.false_eq_true, if_false]
  rw [hexPiece h1 h2 h3 _ (by simp [hst]) (by simp only; omega)]
  simp only [h5]

theorem v6Loop_pieces_colon (env : Env) (vs : List Nat) : ∀ (rest : Str) (st : V6), vs ≠ [] →
    (∀ v ∈ vs, v < 65536) → st.piece = [] → st.pieceIndex + vs.length ≤ 8 → st.addr.length = 8 →
    v6Loop env (hexColons vs ++ 58 :: rest) st = v6Loop env rest { st with
      addr := setMany st.addr st.pieceIndex vs, pieceIndex := st.pieceIndex + vs.length, piece := [],
      prevColon := true } := by
  induction vs with
  | nil => intro rest st h; exact absurd rfl h
  | cons v vs ih =>
    intro rest st _ hv hst hi hl
    simp only [List.length_cons] at hi
    cases vs with
    | nil => exact v6Loop_piece_colon env (hv v (by simp)) rest st hst (by simp at hi; omega) hl
    | cons w ws =>
      have e : hexColons (v :: w :: ws) ++ 58 :: rest =
        hexText v ++ 58 :: (hexColons (w :: ws) ++ 58 :: rest) := by simp [hexColons]
      rw [e, v6Loop_piece_colon env (hv v (by simp)) _ st hst (by omega) hl]
      have := ih rest { st with
        addr := st.addr.set st.pieceIndex v, pieceIndex := st.pieceIndex + 1, piece := [],
        prevColon := true } (by simp) (fun x hx => hv x (by simp [hx])) rfl (by simp only; omega)
        (by simp [hl])
      rw [this]
      simp only [setMany, List.length_cons]
      rw [show st.pieceIndex + 1 + (ws.length + 1) = st.pieceIndex + (ws.length + 1 + 1) by omega]

theorem v6Loop_pieces_end (env : Env) (vs : List Nat) : ∀ (st : V6), vs ≠ [] →
    (∀ v ∈ vs, v < 65536) → st.piece = [] → st.pieceIndex + vs.length ≤ 8 → st.addr.length = 8 →
    v6Loop env (hexColons vs) st = .ok { st with
      addr := setMany st.addr st.pieceIndex vs, pieceIndex := st.pieceIndex + vs.length, piece := [],
      prevColon := false } := by
  induction vs with
  | nil => intro st h; exact absurd rfl h
  | cons v vs ih =>
    intro st _ hv hst hi hl
    simp only [List.length_cons] at hi
    cases vs with
    | nil => exact v6Loop_piece_end env (hv v (by simp)) st hst (by simp at hi; omega) hl
    | cons w ws =>
      have e : hexColons (v :: w :: ws) = hexText v ++ 58 :: hexColons (w :: ws) := by simp [hexColons]
      rw [e, v6Loop_piece_colon env (hv v (by simp)) _ st hst (by omega) hl]
      have := ih { st with
        addr := st.addr.set st.pieceIndex v, pieceIndex := st.pieceIndex + 1, piece := [],
        prevColon := true } (by simp) (fun x hx => hv x (by simp [hx])) rfl (by simp only; omega)
        (by simp [hl])
      rw [this]
      simp only [setMany, List.length_cons]
      rw [show st.pieceIndex + 1 + (ws.length + 1) = st.pieceIndex + (ws.length + 1 + 1) by omega]

theorem hexColons_head {v : Nat} (hv : v < 65536) (vs : List Nat) :
    ∃ c t, hexColons (v :: vs) = c :: t ∧ isHex c = true := by
  obtain ⟨h1, h2, _⟩ := hexText_props hv
  cases hx : hexText v with
  | nil => exact absurd hx h2
  | cons c t =>
    rw [hx] at h1
    cases vs with
    | nil => exact ⟨c, t, hx, h1 c (by simp)⟩
    | cons w ws => exact ⟨c, t ++ u!":" ++ hexColons (w :: ws), by simp [hexColons, hx], h1 c (by simp)⟩

/-- the loop starts without compression unless the text starts with a colon -/
theorem ipv6Parse_nocolon (env : Env) {c : Nat} (t : Str) (hc : c ≠ 58) :
    ipv6Parse env (c :: t) = v6Run env (c :: t) {} := by
  unfold ipv6Parse
  split
  · rename_i heq; injection heq with h1 h2; exact absurd h1 hc
  · rename_i heq; injection heq with h1 h2; exact absurd h1 hc
  · rfl

theorem ipv6Parse_colons (env : Env) (t : Str) :
    ipv6Parse env (58 :: 58 :: t) = v6Run env t { pieceIndex := 1, compress := some 1 } := rfl

theorem v6Run_ok {env : Env} {t : Str} {st st' : V6} (h : v6Loop env t st = .ok st') :
    v6Run env t st = v6Finish st' := by
  unfold v6Run; rw [h]; rfl

theorem length_cases {l : List Nat} {n : Nat} (h : l.length = n + 1) :
    ∃ v t, l = v :: t ∧ t.length = n := by
  cases l with
  | nil => simp at h
  | cons v t => exact ⟨v, t, rfl, by simpa using h⟩

set_option maxHeartbeats 1000000 in
theorem v6_assemble (pre post : List Nat) (h : pre.length + post.length ≤ 6) (pc : Bool) (p : Str) :
    v6Finish { addr := setMany (setMany [0,0,0,0,0,0,0,0] 0 pre) (pre.length + 1) post,
               pieceIndex := pre.length + 1 + post.length, compress := some (pre.length + 1),
               piece := p, prevColon := pc } =
      .ok (pre ++ (List.replicate (8 - pre.length - post.length) 0 ++ post)) := by
  rcases pre with _ | ⟨a0, _ | ⟨a1, _ | ⟨a2, _ | ⟨a3, _ | ⟨a4, _ | ⟨a5, _ | ⟨a6, as⟩⟩⟩⟩⟩⟩⟩ <;> rcases post with _ | ⟨b0, _ | ⟨b1, _ | ⟨b2, _ | ⟨b3, _ | ⟨b4, _ | ⟨b5, _ | ⟨b6, bs⟩⟩⟩⟩⟩⟩⟩ <;> first
    | (exfalso; simp at h; done)
    | (exfalso; simp at h; omega)
    | simp [v6Finish, setMany, v6Swap, List.replicate]

theorem ipv6Parse_run (env : Env) (pre post : List Nat) (h : pre.length + post.length ≤ 6)
    (hpre : ∀ v ∈ pre, v < 65536) (hpost : ∀ v ∈ post, v < 65536) :
    ipv6Parse env (hexColons pre ++ u!"::" ++ hexColons post) =
      .ok (pre ++ (List.replicate (8 - pre.length - post.length) 0 ++ post)) := by
  cases pre with
  | nil =>
    show ipv6Parse env (58 :: 58 :: hexColons post) = _
    rw [ipv6Parse_colons]
    cases post with
    | nil => rfl
    | cons w ws =>
      rw [v6Run_ok (v6Loop_pieces_end env _ _ (by simp) hpost rfl (by simp at h ⊢; omega) rfl)]
      exact v6_assemble [] (w :: ws) (by simpa using h) false []
  | cons v vs =>
    obtain ⟨c, t, e, hc⟩ := hexColons_head (hpre v (by simp)) vs
    have hc58 : c ≠ 58 := by rintro rfl; exact absurd hc (by decide)
    have e2 : hexColons (v :: vs) ++ u!"::" ++ hexColons post =
      c :: (t ++ u!"::" ++ hexColons post) := by rw [e]; rfl
    rw [e2, ipv6Parse_nocolon env _ hc58, ← e2]
    have e3 : hexColons (v :: vs) ++ u!"::" ++ hexColons post =
      hexColons (v :: vs) ++ 58 :: (58 :: hexColons post) := by simp
    simp only [List.length_cons] at h
    unfold v6Run
    rw [e3, v6Loop_pieces_colon env _ _ _ (by simp) hpre rfl (by simp; omega) rfl, v6Loop]
    simp only [List.length_cons, Nat.zero_add]
    rw [if_neg (by omega), if_neg (by simp)]
    simp only [if_true, Option.isSome_none, Bool.false_eq_true, if_false]
    cases post with
    | nil =>
      have : v6Loop env (hexColons []) { addr := setMany [0,0,0,0,0,0,0,0] 0 (v :: vs), pieceIndex := vs.length + 1 + 1, compress := some (vs.length + 1 + 1), piece := [], prevColon := true } = .ok { addr := setMany [0,0,0,0,0,0,0,0] 0 (v :: vs), pieceIndex := vs.length + 1 + 1, compress := some (vs.length + 1 + 1), piece := [], prevColon := true } := by
        rw [hexColons, v6Loop]
        simp only
        simp at h
        rw [if_neg (by omega)]
        simp
      rw [this]
      exact v6_assemble (v :: vs) [] (by simpa using h) true []
    | cons w ws =>
      rw [v6Loop_pieces_end env _ _ (by simp) hpost rfl (by simp at h ⊢; omega) (by
        simp [setMany_length])]
      exact v6_assemble (v :: vs) (w :: ws) (by simpa using h) false []

theorem setMany_all {a : List Nat} (h : a.length = 8) : setMany [0,0,0,0,0,0,0,0] 0 a = a := by
  match a, h with
  | [_, _, _, _, _, _, _, _], _ => rfl

theorem ipv6Parse_plain (env : Env) {a : List Nat} (h : IsV6 a) :
    ipv6Parse env (hexColons a) = .ok a := by
  obtain ⟨hl, hv⟩ := h
  cases a with
  | nil => simp at hl
  | cons v vs =>
    obtain ⟨c, t, e, hc⟩ := hexColons_head (hv v (by simp)) vs
    have hc58 : c ≠ 58 := by rintro rfl; exact absurd hc (by decide)
    rw [e, ipv6Parse_nocolon env _ hc58, ← e,
      v6Run_ok (v6Loop_pieces_end env _ _ (by simp) hv rfl (by show 0 + _ ≤ 8; omega) rfl)]
    simp only [Res.ok, v6Finish, setMany_all hl]
    rw [if_neg (by omega)]

theorem ipv6_round_trip (env : Env) {a : List Nat} (h : IsV6 a) :
    ipv6Parse env (ipv6Serialize a) = .ok a := by
  by_cases hr : ∃ i n, FirstLongestZeroRun a i n
  · obtain ⟨i, n, hr⟩ := hr
    rw [ipv6Serialize_run h.1 hr, ipv6Parse_run]
    · have hle := hr.2.1.1
      have hl := h.1
      conv => rhs; rw [zeroRun_split hr.2.1]
      rw [show 8 - (a.take i).length - (a.drop (i + n)).length = n by simp; omega]
    · have hle := hr.2.1.1
      have hl := h.1
      have := hr.1
      simp; omega
    · exact fun v hv => h.2 v (List.mem_of_mem_take hv)
    · exact fun v hv => h.2 v (List.mem_of_mem_drop hv)
  · have hno : ∀ i n, 2 ≤ n → ¬ ZeroRun a i n := by
      cases hc : v6FindCompress a 0 none none 1 0 with
      | none => exact v6FindCompress_none h.1 hc
      | some c =>
        obtain ⟨m, hm⟩ := v6FindCompress_some h.1 hc
        exact absurd ⟨c, m, hm⟩ hr
    rw [ipv6Serialize_plain h.1 hno, ipv6Parse_plain env h]

end Urlstd
