/-
Lemmas on IPv6 parsing of arbitrary text: invariant of the loop, errors.
-/
import Verif.Lemmas.IPv6
import Verif.Lemmas.IPv4b

namespace Urlstd

open Spec (IsV6)

/-- what the loop maintains -/
structure V6.Inv (st : V6) : Prop where
  len : st.addr.length = 8
  small : ∀ v ∈ st.addr, v < 65536
  idx : st.pieceIndex ≤ 8
  comp : ∀ c, st.compress = some c → c ≤ st.pieceIndex

/-- the only errors of the loop; the second is possible for texts longer than the digit limit -/
def V6Err (env : Env) (n : Nat) (e : Err) : Prop :=
  e = .ipv6Parse ∨ (e = .valueError ∧ env.maxStrDigits ≠ 0 ∧ env.maxStrDigits < n)

theorem V6Err.mono {env : Env} {m n : Nat} {e : Err} (h : V6Err env m e) (hmn : m ≤ n) : V6Err env n e := by
  rcases h with h | ⟨h1, h2, h3⟩
  · exact .inl h
  · exact .inr ⟨h1, h2, by omega⟩

theorem not_badIPv4Part {x : Str} (h : badIPv4Part x = false) :
    x ≠ [] ∧ (∀ c ∈ x, isDigit c = true) ∧ (x.length ≥ 2 → x.headD 0 ≠ 48) := by
  unfold badIPv4Part at h
  simp only [Bool.or_eq_false_iff, List.isEmpty_eq_false_iff, List.any_eq_false, Bool.not_eq_true',
    Bool.not_eq_false, Bool.and_eq_false_imp, decide_eq_true_eq, beq_eq_false_iff_ne] at h
  exact ⟨h.1.1, h.1.2, h.2⟩

theorem digits_numeral {x : Str} (h : ∀ c ∈ x, isDigit c = true) : IsNumeral 10 x := fun c hc =>
  digitValue_lt10.2 (h c hc)

theorem mem_set_small {a : List Nat} {i v : Nat} (h : ∀ w ∈ a, w < 65536) (hv : v < 65536) :
    ∀ w ∈ a.set i v, w < 65536 := by
  intro w hw
  rcases List.mem_or_eq_of_mem_set hw with h' | h'
  · exact h w h'
  · omega

theorem ipv4PartValues_none {env : Env} {xs : List Str} (hb : ∀ x ∈ xs, badIPv4Part x = false)
    (h : ipv4PartValues env xs = none) : ∃ x ∈ xs, env.maxStrDigits ≠ 0 ∧ env.maxStrDigits < x.length := by
  induction xs with
  | nil => simp [ipv4PartValues] at h
  | cons x xs ih =>
    by_cases hl : env.maxStrDigits = 0 ∨ x.length ≤ env.maxStrDigits
    · obtain ⟨h1, h2, _⟩ := not_badIPv4Part (hb x (by simp))
      have hv := pyInt_numeral env (by omega) (digits_numeral h2) h1 (fun _ => hl)
      unfold ipv4PartValues at h
      rw [hv] at h
      cases hr : ipv4PartValues env xs with
      | none =>
        obtain ⟨y, hy, hh⟩ := ih (fun y hy => hb y (by simp [hy])) hr
        exact ⟨y, by simp [hy], hh⟩
      | some vs => rw [hr] at h; simp at h
    · exact ⟨x, by simp, by omega⟩

theorem length_of_mem_splitOn {sep : Nat} {s p : Str} (hp : p ∈ splitOn sep s) : p.length ≤ s.length := by
  induction s generalizing p with
  | nil => simp [splitOn] at hp; simp [hp]
  | cons c cs ih =>
    by_cases hc : c = sep
    · subst hc
      rw [splitOn_sep] at hp
      rcases List.mem_cons.1 hp with rfl | hp
      · simp
      · have := ih hp; simp; omega
    · obtain ⟨h, t, hs⟩ := splitOn_cons sep cs
      rw [splitOn_other hc hs] at hp
      rcases List.mem_cons.1 hp with rfl | hp
      · have := ih (p := h) (by rw [hs]; simp); simp; omega
      · have := ih (p := p) (by rw [hs]; simp [hp]); simp; omega

/-- outcome of the end of a piece -/
def V6Post (env : Env) (n : Nat) (r : Res V6) : Prop :=
  match r.res with
  | .ok st' => st'.Inv ∧ st'.piece = []
  | .error e => V6Err env n e

theorem v6IPv4_post (env : Env) (st : V6) (b : Bool) (h : st.Inv) :
    V6Post env st.piece.length (v6IPv4 env st b) := by
  unfold v6IPv4
  by_cases h6 : st.pieceIndex > 6
  · rw [if_pos h6]; exact .inl rfl
  rw [if_neg h6]
  dsimp only
  by_cases hb : (decide ((splitOn 46 st.piece).length > 4) || (splitOn 46 st.piece).any badIPv4Part) = true
  · rw [if_pos hb]; exact .inl rfl
  rw [if_neg hb]
  simp only [Bool.not_eq_true, Bool.or_eq_false_iff, List.any_eq_false] at hb
  cases hv : ipv4PartValues env (splitOn 46 st.piece) with
  | none =>
    obtain ⟨x, hx, h1, h2⟩ := ipv4PartValues_none (fun x hx => by simpa using hb.2 x hx) hv
    have := length_of_mem_splitOn hx
    exact .inr ⟨rfl, h1, by omega⟩
  | some vs =>
    dsimp only
    by_cases ho : (vs.any (· > 255)) = true
    · rw [if_pos ho]; exact .inl rfl
    rw [if_neg ho]
    simp only [List.any_eq_true, decide_eq_true_eq, not_exists, not_and] at ho
    match vs with
    | [a, b', c, d] =>
      have ha := ho a (by simp)
      have hb := ho b' (by simp)
      have hc := ho c (by simp)
      have hd := ho d (by simp)
      have hl := h.len
      dsimp only
      rw [if_pos (by omega)]
      refine ⟨⟨by simp [hl], ?_, by dsimp only; omega, ?_⟩, rfl⟩
      · exact mem_set_small (mem_set_small h.small (by omega)) (by omega)
      · intro k hk
        have := h.comp k hk
        dsimp only; omega
    | [] => exact .inl rfl
    | [_] => exact .inl rfl
    | [_, _] => exact .inl rfl
    | [_, _, _] => exact .inl rfl
    | _ :: _ :: _ :: _ :: _ :: _ => exact .inl rfl

theorem v6Piece_post (env : Env) (st : V6) (b : Bool) (h : st.Inv) (hi : st.pieceIndex < 8) :
    V6Post env st.piece.length (v6Piece env st b) := by
  have hl := h.len
  by_cases he : st.piece = []
  · unfold v6Piece
    rw [if_pos (by simp [he])]
    refine ⟨⟨hl, h.small, by dsimp only; omega, ?_⟩, he⟩
    intro c hc
    have := h.comp c hc
    dsimp only; omega
  by_cases hd : st.piece.contains 46 = true
  · unfold v6Piece
    rw [if_neg (by simp [he]), if_neg (by simp only [hd]; decide)]
    exact v6IPv4_post env st b h
  by_cases hx : (decide (st.piece.length > 4) || st.piece.any (!isHex ·)) = true
  · unfold v6Piece
    rw [if_neg (by simp [he]), if_pos (by simpa using hd), if_pos hx]
    exact .inl rfl
  · simp only [Bool.not_eq_true, Bool.or_eq_false_iff, decide_eq_false_iff_not, List.any_eq_false,
      Bool.not_eq_true', Bool.not_eq_false] at hx
    rw [hexPiece hx.2 he (by omega) st rfl (by omega)]
    have hn := numVal_lt (base := 16) st.piece (fun c hc => digitValue_lt16.2 (hx.2 c hc))
    have h16 : 16 ^ st.piece.length ≤ 16 ^ 4 := Nat.pow_le_pow_right (by omega) (by omega)
    refine ⟨⟨by simp [hl], mem_set_small h.small (by omega), by dsimp only; omega, ?_⟩, rfl⟩
    intro c hc
    have := h.comp c hc
    dsimp only; omega

theorem v6Loop_post (env : Env) (s : Str) : ∀ st : V6, st.Inv →
    match (v6Loop env s st).res with
    | .ok st' => st'.Inv
    | .error e => V6Err env (st.piece.length + s.length) e := by
  induction s with
  | nil =>
    intro st h
    rw [v6Loop]
    by_cases h8 : st.pieceIndex ≥ 8
    · rw [if_pos h8]; exact .inl rfl
    rw [if_neg h8]
    by_cases hp : st.prevColon = true
    · rw [if_pos hp]
      split
      · rename_i heq; split at heq <;> cases heq; exact h
      · rename_i heq; split at heq <;> cases heq; exact .inl rfl
    · rw [if_neg hp]
      have := v6Piece_post env st false h (by omega)
      unfold V6Post at this
      split at this
      · exact this.1
      · exact this
  | cons c cs ih =>
    intro st h
    rw [v6Loop]
    by_cases h8 : st.pieceIndex ≥ 8
    · rw [if_pos h8]; exact .inl rfl
    rw [if_neg h8]
    by_cases hc : c ≠ 58
    · rw [if_pos hc]
      have := ih { st with piece := st.piece ++ [c], prevColon := false } ⟨h.len, h.small, h.idx, h.comp⟩
      split at this
      · exact this
      · exact this.mono (by simp; omega)
    rw [if_neg hc]
    by_cases hp : st.prevColon = true
    · rw [if_pos hp]
      by_cases hs : st.compress.isSome = true
      · rw [if_pos hs]; exact .inl rfl
      rw [if_neg hs]
      have := ih { st with pieceIndex := st.pieceIndex + 1, compress := some (st.pieceIndex + 1) }
        ⟨h.len, h.small, by dsimp only; omega, by intro c hc; injection hc with hc; dsimp only; omega⟩
      split at this
      · exact this
      · exact this.mono (by simp)
    · rw [if_neg hp]
      have hpost := v6Piece_post env st true h (by omega)
      unfold V6Post at hpost
      split at hpost <;> rename_i e1 heq
      · obtain ⟨hi, hpe⟩ := hpost
        have := ih e1 hi
        have e2 : v6Piece env st true = ⟨.ok e1, (v6Piece env st true).log⟩ := by rw [← heq]
        rw [e2]; dsimp only
        split at this
        · exact this
        · exact this.mono (by simp [hpe]; omega)
      · have e2 : v6Piece env st true = ⟨.error e1, (v6Piece env st true).log⟩ := by rw [← heq]
        rw [e2]
        exact V6Err.mono hpost (by simp)

theorem v6Swap_ok (compress : Nat) : ∀ (swaps i : Nat) (a : List Nat), IsV6 a → compress + swaps ≤ 8 →
    i < 8 → ∃ a', v6Swap compress swaps i a = some a' ∧ IsV6 a' := by
  intro swaps
  induction swaps with
  | zero => intro i a h _ _; exact ⟨a, rfl, h⟩
  | succ k ih =>
    intro i a h hc hi
    rw [v6Swap]
    by_cases h0 : i = 0
    · rw [if_pos h0]; exact ⟨a, rfl, h⟩
    · have hl := h.1
      rw [if_neg h0, if_pos (by simp [hl]; omega)]
      have hg : ∀ j, a.getD j 0 < 65536 := by
        intro j
        by_cases hj : j < a.length
        · rw [getD_lt _ hj]; exact h.2 _ (List.getElem_mem hj)
        · rw [List.getD_eq_getElem?_getD, List.getElem?_eq_none (by omega)]; simp
      exact ih (i - 1) _ ⟨by simp [hl], mem_set_small (mem_set_small h.2 (hg _)) (hg _)⟩ (by omega) (by omega)

theorem ipv6Parse_onecolon (env : Env) {d : Nat} {u : Str} (hd : d ≠ 58) :
    ipv6Parse env (58 :: d :: u) = .err .ipv6Parse [.ev .ipv6InvalidCompression] := by
  unfold ipv6Parse
  split
  · rename_i heq; injection heq with _ heq; injection heq with h1 _; exact absurd h1 hd
  · rfl
  · rename_i h; exact absurd rfl (h _)

/-- Every outcome of `IPv6Address.parse`: eight 16-bit pieces, `IPv6AddressParseError`, or ValueError
for a text longer than the digit limit. -/
theorem ipv6Parse_post (env : Env) (s : Str) :
    match (ipv6Parse env s).res with
    | .ok a => IsV6 a
    | .error e => V6Err env s.length e := by
  have core : ∀ (N : Nat) (t : Str) (st : V6), st.Inv → st.piece = [] → t.length ≤ N →
      match (v6Run env t st).res with
      | .ok a => IsV6 a
      | .error e => V6Err env N e := by
    intro N t st h hp ht
    have := v6Loop_post env t st h
    unfold v6Run
    rcases hr : v6Loop env t st with ⟨r, log⟩
    rw [hr] at this
    cases r with
    | error e =>
      dsimp only at this ⊢
      exact V6Err.mono this (by simp [hp]; omega)
    | ok st' =>
      dsimp only at this ⊢
      unfold v6Finish
      cases hc : st'.compress with
      | some c =>
        dsimp only
        have h1 := this.comp c hc
        have h2 := this.idx
        obtain ⟨a', e, ha'⟩ := v6Swap_ok c (st'.pieceIndex - c) 7 st'.addr ⟨this.len, this.small⟩
          (by omega) (by omega)
        rw [e]
        exact ha'
      | none =>
        dsimp only
        by_cases h8 : st'.pieceIndex ≠ 8
        · rw [if_pos h8]; exact .inl rfl
        · rw [if_neg h8]; exact ⟨this.len, this.small⟩
  have hz : ∀ v ∈ [0, 0, 0, 0, 0, 0, 0, 0], v < 65536 := by simp
  have hi0 : ({} : V6).Inv := ⟨rfl, hz, by decide, by intro c hc; cases hc⟩
  have hi1 : ({ pieceIndex := 1, compress := some 1 } : V6).Inv :=
    ⟨rfl, hz, by decide, by intro c hc; injection hc with hc; dsimp only; omega⟩
  cases s with
  | nil => exact core _ [] {} hi0 rfl (by simp)
  | cons c t =>
    by_cases hc : c = 58
    · subst hc
      cases t with
      | nil => exact .inl rfl
      | cons d u =>
        by_cases hd : d = 58
        · subst hd
          rw [ipv6Parse_colons]
          exact core _ u _ hi1 rfl (by simp; omega)
        · rw [ipv6Parse_onecolon env hd]
          exact .inl rfl
    · rw [ipv6Parse_nocolon env t hc]
      exact core _ (c :: t) {} hi0 rfl (Nat.le_refl _)

/-- The assertion `len(address) == 8` of `IPv6Address.serialize` holds for parsed addresses. -/
theorem ipv6Parse_length {env : Env} {s : Str} {a : List Nat} {log : Log}
    (h : ipv6Parse env s = ⟨.ok a, log⟩) : IsV6 a := by
  have := ipv6Parse_post env s
  rw [h] at this
  exact this

end Urlstd
