/-
Lemmas on the ValueError of IPv6 parsing (C14).
-/
import Verif.Lemmas.IPv6d
import Verif.Lemmas.Assign
import Verif.Spec.LongQuad

namespace Urlstd

open Spec (hexText hexColons DecPart LongQuad EndsColon StartsColon)

theorem decPart_iff {p : Str} : DecPart p ↔ badIPv4Part p = false := by
  unfold DecPart
  have hd : ∀ c, isDigit c = true ↔ 48 ≤ c ∧ c ≤ 57 := by
    intro c; simp [isDigit]
  constructor
  · rintro ⟨h1, h2, h3⟩
    unfold badIPv4Part
    simp only [Bool.or_eq_false_iff, List.isEmpty_eq_false_iff, List.any_eq_false, Bool.not_eq_true',
      Bool.not_eq_false, Bool.and_eq_false_imp, decide_eq_true_eq, beq_eq_false_iff_ne]
    refine ⟨⟨h1, fun c hc => (hd c).2 (h2 c hc)⟩, fun hl => ?_⟩
    rcases h3 with rfl | h3
    · simp at hl
    · cases p with
      | nil => exact absurd rfl h1
      | cons a t => simpa using h3
  · intro h
    obtain ⟨h1, h2, h3⟩ := not_badIPv4Part h
    refine ⟨h1, fun c hc => (hd c).1 (h2 c hc), ?_⟩
    match p, h1, h3 with
    | [a], _, _ =>
      by_cases ha : a = 48
      · exact .inl (by rw [ha])
      · exact .inr (by simpa using ha)
    | a :: b :: t, _, h3 => exact .inr (by simpa using h3 (by simp))

theorem ipv4PartValues_long {env : Env} {xs : List Str} (hb : ∀ x ∈ xs, badIPv4Part x = false)
    (h : ∃ x ∈ xs, env.maxStrDigits ≠ 0 ∧ env.maxStrDigits < x.length) : ipv4PartValues env xs = none := by
  induction xs with
  | nil => simp at h
  | cons x xs ih =>
    obtain ⟨y, hy, h1, h2⟩ := h
    rw [ipv4PartValues]
    rcases List.mem_cons.1 hy with rfl | hy
    · obtain ⟨h3, h4, _⟩ := not_badIPv4Part (hb y (by simp))
      rw [pyInt_long env (digits_numeral h4) h3 ⟨by omega, h2⟩]
    · rw [ih (fun z hz => hb z (by simp [hz])) ⟨y, hy, h1, h2⟩]
      cases pyInt env 10 x <;> rfl

theorem longQuad_iff {env : Env} {g : Str} : LongQuad env.maxStrDigits g ↔
    g.contains 46 = true ∧ (decide ((splitOn 46 g).length > 4) || (splitOn 46 g).any badIPv4Part) = false ∧
      ipv4PartValues env (splitOn 46 g) = none := by
  have hno : ∀ p, DecPart p → 46 ∉ p := fun p hp h => by have := hp.2.1 46 h; omega
  constructor
  · rintro ⟨parts, h2, h4, rfl, hp, h0, hl⟩
    have e : splitOn 46 (joinWith u!"." parts) = parts :=
      splitOn_joinWith (by intro h; simp [h] at h2) (fun p h => hno p (hp p h))
    refine ⟨?_, ?_, ?_⟩
    · rw [List.contains_eq_mem, decide_eq_true_eq]
      refine Classical.byContradiction fun hc => ?_
      rw [splitOn_no_sep hc] at e
      rw [← e] at h2
      simp at h2
    · rw [e]
      simp only [Bool.or_eq_false_iff, decide_eq_false_iff_not, List.any_eq_false]
      exact ⟨by omega, fun p h => by simp [decPart_iff.1 (hp p h)]⟩
    · rw [e]
      obtain ⟨p, h, hl⟩ := hl
      exact ipv4PartValues_long (fun p h => decPart_iff.1 (hp p h)) ⟨p, h, h0, hl⟩
  · rintro ⟨h1, h2, h3⟩
    simp only [Bool.or_eq_false_iff, decide_eq_false_iff_not, List.any_eq_false] at h2
    have hb : ∀ p ∈ splitOn 46 g, badIPv4Part p = false := fun p hp => by simpa using h2.2 p hp
    obtain ⟨p, hp, h0, hl⟩ := ipv4PartValues_none hb h3
    refine ⟨splitOn 46 g, ?_, by omega, joinWith_splitOn 46 g, fun p hp => decPart_iff.2 (hb p hp), h0, p, hp, hl⟩
    rw [List.contains_eq_mem, decide_eq_true_eq] at h1
    obtain ⟨a, b, rfl⟩ := List.append_of_mem h1
    rw [splitOn_append_gen, List.length_append]
    have h5 := List.length_pos_iff.2 (splitOn_ne_nil 46 a)
    have h6 := List.length_pos_iff.2 (splitOn_ne_nil 46 b)
    omega

/-- the ValueError at the end of a piece -/
theorem v6Piece_valueError {env : Env} {st : V6} {b : Bool} (h : st.Inv) (h8 : st.pieceIndex < 8) :
    (v6Piece env st b).res = .error .valueError ↔
      LongQuad env.maxStrDigits st.piece ∧ st.pieceIndex ≤ 6 := by
  have hl := h.len
  rw [longQuad_iff]
  by_cases he : st.piece = []
  · unfold v6Piece
    rw [if_pos (by simp [he])]
    constructor
    · intro h; cases h
    · rintro ⟨⟨h, -⟩, -⟩; rw [he] at h; simp at h
  by_cases hd : st.piece.contains 46 = true
  · unfold v6Piece
    rw [if_neg (by simp [he]), if_neg (by simp only [hd]; decide)]
    unfold v6IPv4
    by_cases h6 : st.pieceIndex > 6
    · rw [if_pos h6]
      constructor
      · intro h; cases h
      · rintro ⟨-, h⟩; omega
    rw [if_neg h6]
    dsimp only
    cases hb : (decide ((splitOn 46 st.piece).length > 4) || (splitOn 46 st.piece).any badIPv4Part) with
    | true =>
      rw [if_pos rfl]
      constructor
      · intro h; cases h
      · rintro ⟨⟨-, h, -⟩, -⟩; cases h
    | false =>
      rw [if_neg (by simp)]
      cases hv : ipv4PartValues env (splitOn 46 st.piece) with
      | none => exact ⟨fun _ => ⟨⟨hd, rfl, rfl⟩, by omega⟩, fun _ => rfl⟩
      | some vs =>
        dsimp only
        constructor
        · intro h
          split at h
          · cases h
          · split at h
            · split at h <;> cases h
            · cases h
        · rintro ⟨⟨-, -, h⟩, -⟩; cases h
  · constructor
    · intro h'
      have := v6Piece_post env st b h h8
      unfold v6Piece at h'
      rw [if_neg (by simp [he]), if_pos (by simpa using hd)] at h'
      by_cases hx : (decide (st.piece.length > 4) || st.piece.any (!isHex ·)) = true
      · rw [if_pos hx] at h'; cases h'
      · simp only [Bool.not_eq_true, Bool.or_eq_false_iff, decide_eq_false_iff_not, List.any_eq_false,
          Bool.not_eq_true', Bool.not_eq_false] at hx
        have e := hexPiece (env := env) hx.2 he (by omega) st rfl (by omega) b
        unfold v6Piece at e
        rw [if_neg (by simp [he]), if_pos (by simpa using hd)] at e
        rw [e] at h'
        cases h'
    · rintro ⟨⟨h, -⟩, -⟩; exact absurd h hd

/-- the state of the loop behind a beginning of the text, if the loop gets there -/
theorem v6Loop_split (env : Env) (x : Str) : ∀ st : V6, st.Inv → (st.prevColon = true → st.piece = []) →
    (x = [] → st.piece = []) → EndsColon x →
    (∃ st' : V6, st'.Inv ∧ st'.piece = [] ∧ ∀ r, v6Loop env (x ++ r) st = v6Loop env r st') ∨
      ∃ e log, ∀ r, v6Loop env (x ++ r) st = ⟨.error e, log⟩ := by
  induction x with
  | nil => intro st hi _ h2 _; exact .inl ⟨st, hi, h2 rfl, fun _ => rfl⟩
  | cons c cs ih =>
    intro st hi h1 _ h3
    have h3' : cs = [] ∨ cs.getLast? = some 58 := by
      rcases h3 with h3 | h3
      · cases h3
      · cases cs with
        | nil => exact .inl rfl
        | cons y ys => rw [List.getLast?_cons_cons] at h3; exact .inr h3
    by_cases h8 : st.pieceIndex ≥ 8
    · exact .inr ⟨_, _, fun r => by rw [List.cons_append, v6Loop, if_pos h8]; rfl⟩
    by_cases hc : c = 58
    · subst hc
      cases hp : st.prevColon with
      | true =>
        have e : ∀ z, v6Loop env (58 :: z) st = if st.compress.isSome then .err .ipv6Parse [.ev .ipv6MultipleCompression]
            else v6Loop env z { st with pieceIndex := st.pieceIndex + 1, compress := some (st.pieceIndex + 1) } := by
          intro z
          rw [v6Loop, if_neg h8, if_neg (by simp), if_pos hp]
        cases hcm : st.compress with
        | some v => exact .inr ⟨_, _, fun r => by rw [List.cons_append, e, hcm]; rfl⟩
        | none =>
          have := ih { st with pieceIndex := st.pieceIndex + 1, compress := some (st.pieceIndex + 1) }
            ⟨hi.len, hi.small, by dsimp only; omega, by
              intro k hk; injection hk with hk; dsimp only; omega⟩ (fun _ => h1 hp) (fun _ => h1 hp) h3'
          have e' : ∀ r, v6Loop env (58 :: cs ++ r) st = v6Loop env (cs ++ r)
              { st with pieceIndex := st.pieceIndex + 1, compress := some (st.pieceIndex + 1) } := by
            intro r
            rw [List.cons_append, e, hcm, if_neg (by simp)]
          simpa only [e'] using this
      | false =>
        rcases hv : v6Piece env st true with ⟨r, log⟩
        have e : ∀ z, v6Loop env (58 :: z) st = match v6Piece env st true with
            | ⟨.error e, log⟩ => .err e log
            | ⟨.ok st', _⟩ => v6Loop env z st' := by
          intro z
          rw [v6Loop, if_neg h8, if_neg (by simp), if_neg (by simp [hp])]
          rfl
        cases r with
        | error e' => exact .inr ⟨_, _, fun r => by rw [List.cons_append, e, hv]; rfl⟩
        | ok st' =>
          have hpost := v6Piece_post env st true hi (by omega)
          rw [hv] at hpost
          have := ih st' hpost.1 (fun _ => hpost.2) (fun _ => hpost.2) h3'
          have e' : ∀ r, v6Loop env (58 :: cs ++ r) st = v6Loop env (cs ++ r) st' := by
            intro r
            rw [List.cons_append, e, hv]
          simpa only [e'] using this
    · have e' : ∀ r, v6Loop env (c :: cs ++ r) st = v6Loop env (cs ++ r)
          { st with piece := st.piece ++ [c], prevColon := false } := by
        intro r
        rw [List.cons_append, v6Loop, if_neg h8, if_pos hc]
      have := ih { st with piece := st.piece ++ [c], prevColon := false }
        ⟨hi.len, hi.small, hi.idx, hi.comp⟩ (fun h => by cases h)
        (by
          rintro rfl
          rcases h3 with h3 | h3
          · cases h3
          · simp at h3; exact absurd h3 hc) h3'
      simpa only [e'] using this

theorem starts_colon_cases (s : Str) : ∃ p rest, s = p ++ rest ∧ 58 ∉ p ∧ StartsColon rest := by
  refine ⟨s.takeWhile (· != 58), s.dropWhile (· != 58), (List.takeWhile_append_dropWhile ..).symm, ?_, ?_⟩
  · intro h
    have : ∀ l : Str, 58 ∉ l.takeWhile (· != 58) := by
      intro l
      induction l with
      | nil => simp
      | cons a l ih =>
        by_cases ha : a = 58
        · simp [ha]
        · simp [ha, ih, Ne.symm ha]
    exact this s h
  · cases hr : s.dropWhile (· != 58) with
    | nil => exact .inl rfl
    | cons c t =>
      have := head_dropWhile_false (p := (· != 58)) (l := s) (c := c) (by rw [hr]; rfl)
      simp at this
      exact .inr (by simp [this])

/-- where the ValueError of the loop comes from -/
theorem v6Loop_valueError {env : Env} : ∀ (n : Nat) (s : Str) (st : V6), s.length ≤ n → st.Inv → st.piece = [] →
    (v6Loop env s st).res = .error .valueError →
    ∃ x g y, ∃ st' : V6, s = x ++ g ++ y ∧ EndsColon x ∧ StartsColon y ∧ LongQuad env.maxStrDigits g ∧
      st'.Inv ∧ st'.piece = [] ∧ st'.pieceIndex ≤ 6 ∧ ∀ r, v6Loop env (x ++ r) st = v6Loop env r st' := by
  intro n
  induction n with
  | zero =>
    intro s st hn hi hp h
    obtain rfl : s = [] := by simpa using hn
    exfalso
    rw [v6Loop] at h
    split at h
    · cases h
    · split at h
      · split at h <;> cases h
      · next h8 _ =>
        have := (v6Piece_valueError hi (by omega)).1 h
        rw [hp, longQuad_iff] at this
        simp at this
  | succ n ih =>
    intro s st hn hi hp h
    have h8 : ¬ st.pieceIndex ≥ 8 := by
      intro h8
      cases s <;> (rw [v6Loop, if_pos h8] at h; cases h)
    -- one group and its colon
    have step : ∀ (q t : Str) (st1 : V6), s = q ++ 58 :: t → st1.Inv → st1.piece = [] →
        (∀ r, v6Loop env (q ++ 58 :: r) st = v6Loop env r st1) →
        ∃ x g y, ∃ st' : V6, s = x ++ g ++ y ∧ EndsColon x ∧ StartsColon y ∧ LongQuad env.maxStrDigits g ∧
          st'.Inv ∧ st'.piece = [] ∧ st'.pieceIndex ≤ 6 ∧ ∀ r, v6Loop env (x ++ r) st = v6Loop env r st' := by
      intro q t st1 hs hi1 hp1 hr
      rw [hs, hr] at h
      obtain ⟨x, g, y, st', h1, h2, h3, h4, h5, h6, h7, h9⟩ := ih t st1 (by rw [hs] at hn; simp at hn; omega) hi1 hp1 h
      refine ⟨q ++ 58 :: x, g, y, st', by rw [hs, h1]; simp, .inr ?_, h3, h4, h5, h6, h7, fun r => ?_⟩
      · rcases h2 with rfl | h2
        · simp
        · cases x with
          | nil => cases h2
          | cons a x => simp only [List.getLast?_append, List.getLast?_cons_cons, h2]; rfl
      · rw [List.append_assoc, List.cons_append, hr, h9]
    obtain ⟨p, rest, hs, hp58, hrest⟩ := starts_colon_cases s
    by_cases hpe : p = []
    · subst hpe
      rw [List.nil_append] at hs
      subst hs
      rcases hrest with rfl | hrest
      · exact ih [] st (by simp) hi hp h
      · cases s with
        | nil => cases hrest
        | cons c t =>
          obtain rfl : c = 58 := by simpa using hrest
          cases hpc : st.prevColon with
          | true =>
            have e : ∀ z, v6Loop env (58 :: z) st = if st.compress.isSome then .err .ipv6Parse [.ev .ipv6MultipleCompression]
                else v6Loop env z { st with pieceIndex := st.pieceIndex + 1, compress := some (st.pieceIndex + 1) } := by
              intro z
              rw [v6Loop, if_neg h8, if_neg (by simp), if_pos hpc]
            cases hcm : st.compress with
            | some v => rw [e, hcm] at h; cases h
            | none =>
              refine step [] t { st with pieceIndex := st.pieceIndex + 1, compress := some (st.pieceIndex + 1) } rfl
                ⟨hi.len, hi.small, by dsimp only; omega, by
                  intro k hk; injection hk with hk; dsimp only; omega⟩ hp (fun r => ?_)
              rw [List.nil_append, e, hcm, if_neg (by simp)]
          | false =>
            refine step [] t { st with prevColon := true, pieceIndex := st.pieceIndex + 1 } rfl
              ⟨hi.len, hi.small, by dsimp only; omega, by
                intro k hk; have := hi.comp k hk; dsimp only; omega⟩ hp (fun r => ?_)
            rw [List.nil_append, v6Loop, if_neg h8, if_neg (by simp), if_neg (by simp [hpc])]
            unfold v6Piece
            rw [if_pos (by simp [hp])]
            rfl
    · have hread := fun r => v6Loop_read env p hp58 hpe r st (by omega)
      have hi2 : ({ st with piece := st.piece ++ p, prevColon := false } : V6).Inv :=
        ⟨hi.len, hi.small, hi.idx, hi.comp⟩
      have here : ∀ b, (v6Piece env { st with piece := st.piece ++ p, prevColon := false } b).res = .error .valueError →
          ∃ x g y, ∃ st' : V6, s = x ++ g ++ y ∧ EndsColon x ∧ StartsColon y ∧ LongQuad env.maxStrDigits g ∧
            st'.Inv ∧ st'.piece = [] ∧ st'.pieceIndex ≤ 6 ∧ ∀ r, v6Loop env (x ++ r) st = v6Loop env r st' := by
        intro b hv
        obtain ⟨h1, h2⟩ := (v6Piece_valueError hi2 (by dsimp only; omega)).1 hv
        dsimp only at h1 h2
        rw [hp, List.nil_append] at h1
        exact ⟨[], p, rest, st, hs, .inl rfl, hrest, h1, hi, hp, h2, fun _ => rfl⟩
      rw [hs, hread] at h
      rcases hrest with rfl | hrest
      · rw [v6Loop, if_neg h8, if_neg (by simp)] at h
        exact here _ h
      · cases rest with
        | nil => cases hrest
        | cons c t =>
          obtain rfl : c = 58 := by simpa using hrest
          rcases hv : v6Piece env { st with piece := st.piece ++ p, prevColon := false } true with ⟨r, log⟩
          have e : ∀ z, v6Loop env (58 :: z) { st with piece := st.piece ++ p, prevColon := false } =
              match v6Piece env { st with piece := st.piece ++ p, prevColon := false } true with
              | ⟨.error e, log⟩ => .err e log
              | ⟨.ok st', _⟩ => v6Loop env z st' := by
            intro z
            rw [v6Loop, if_neg h8, if_neg (by simp), if_neg (by simp)]
            rfl
          cases r with
          | error e' =>
            rw [e, hv] at h
            apply here true
            rw [hv]
            exact h
          | ok st1 =>
            have hpost := v6Piece_post env _ true hi2 (by dsimp only; omega)
            rw [hv] at hpost
            exact step p t st1 hs hpost.1 hpost.2 (fun r => by rw [hread, e, hv])

/-- room for two pieces is room enough -/
theorem v6Run_zeros (env : Env) {st : V6} (hi : st.Inv) (hp : st.piece = []) (h6 : st.pieceIndex ≤ 6) :
    ∃ z a, v6Run env (u!"0:0" ++ z) st = .ok a := by
  obtain ⟨k, hk⟩ : ∃ k, st.pieceIndex + (k + 2) = 8 := ⟨6 - st.pieceIndex, by omega⟩
  have hz : ∃ z, hexColons (List.replicate (k + 2) 0) = u!"0:0" ++ z := by
    cases k with
    | zero => exact ⟨[], by decide +kernel⟩
    | succ k =>
      refine ⟨58 :: hexColons (List.replicate (k + 1) 0), ?_⟩
      show hexColons (0 :: 0 :: 0 :: List.replicate k 0) = _
      have e0 : hexText 0 = u!"0" := by decide +kernel
      simp [hexColons, e0, List.replicate_succ]
  obtain ⟨z, hz⟩ := hz
  refine ⟨z, ?_⟩
  have h := v6Loop_pieces_end env (List.replicate (k + 2) 0) st (by simp [List.replicate_succ])
    (by intro v hv; rw [List.mem_replicate] at hv; omega) hp (by simp; omega) hi.len
  rw [hz] at h
  have hpost := v6Loop_post env (u!"0:0" ++ z) st hi
  rw [v6Run_ok h]
  rw [h] at hpost
  have hpost : V6.Inv _ := hpost
  unfold v6Finish
  dsimp only
  cases hc : st.compress with
  | some c =>
    dsimp only
    have h1 := hi.comp c hc
    obtain ⟨a', e, _⟩ := v6Swap_ok c (st.pieceIndex + (List.replicate (k + 2) 0).length - c) 7 _
      ⟨hpost.len, hpost.small⟩ (by simp; omega) (by omega)
    exact ⟨a', by dsimp only at e; rw [e]⟩
  | none =>
    dsimp only
    rw [if_neg (by simp; omega)]
    exact ⟨_, rfl⟩

/-- the converse -/
theorem v6Loop_room {env : Env} {st st' : V6} {log : Log} {z : Str} (hi : st.Inv) (hp : st.piece = [])
    (h : v6Loop env (u!"0:0" ++ z) st = ⟨.ok st', log⟩) : st.pieceIndex ≤ 6 := by
  by_cases h8 : st.pieceIndex ≥ 8
  · rw [show u!"0:0" ++ z = 48 :: 58 :: 48 :: z from rfl, v6Loop, if_pos h8] at h
    cases h
  have e : u!"0:0" ++ z = hexText 0 ++ 58 :: (48 :: z) := by
    rw [show hexText 0 = u!"0" by decide +kernel]; rfl
  rw [e, v6Loop_piece_colon env (by omega) _ st hp (by omega) hi.len, v6Loop] at h
  dsimp only at h
  split at h
  · cases h
  · omega

theorem v6Run_valueError {env : Env} {t : Str} {st : V6} (hi : st.Inv) :
    (v6Run env t st).res = .error .valueError ↔ (v6Loop env t st).res = .error .valueError := by
  have hpost := v6Loop_post env t st hi
  unfold v6Run
  rcases hr : v6Loop env t st with ⟨r, log⟩
  rw [hr] at hpost
  cases r with
  | error e => simp [Res.err]
  | ok st' =>
    dsimp only
    constructor
    · intro h
      unfold v6Finish at h
      split at h
      · split at h <;> cases h
      · split at h <;> cases h
    · intro h; cases h

theorem v6Run_valueError_iff (env : Env) (s : Str) (st : V6) (hi : st.Inv) (hp : st.piece = []) :
    (v6Run env s st).res = .error .valueError ↔
      ∃ x g y, s = x ++ g ++ y ∧ EndsColon x ∧ StartsColon y ∧ LongQuad env.maxStrDigits g ∧
        ∃ z a log, v6Run env (x ++ u!"0:0" ++ z) st = ⟨.ok a, log⟩ := by
  rw [v6Run_valueError hi]
  constructor
  · intro h
    obtain ⟨x, g, y, st', h1, h2, h3, h4, h5, h6, h7, h8⟩ := v6Loop_valueError s.length s st (Nat.le_refl _) hi hp h
    obtain ⟨z, a, h9⟩ := v6Run_zeros env h5 h6 h7
    refine ⟨x, g, y, h1, h2, h3, h4, z, a, [], ?_⟩
    rw [v6Run, List.append_assoc, h8, ← v6Run, h9]
    rfl
  · rintro ⟨x, g, y, rfl, h2, h3, h4, z, a, log, h⟩
    rcases v6Loop_split env x st hi (fun _ => hp) (fun _ => hp) h2 with ⟨st', h5, h6, h7⟩ | ⟨e, log', h5⟩
    · rw [List.append_assoc, h7]
      rw [v6Run, List.append_assoc, h7] at h
      rcases hr : v6Loop env (u!"0:0" ++ z) st' with ⟨r, log''⟩
      cases r with
      | error e => rw [hr] at h; cases h
      | ok st'' =>
        have h8 := v6Loop_room h5 h6 hr
        have hg58 : 58 ∉ g := by
          obtain ⟨parts, -, -, rfl, hq, -⟩ := h4
          intro hm
          have : ∀ ps : List Str, (∀ p ∈ ps, DecPart p) → 58 ∉ joinWith u!"." ps := by
            intro ps hps
            induction ps with
            | nil => simp [joinWith]
            | cons p ps ih =>
              have h1 : 58 ∉ p := fun hm => by have := (hps p (by simp)).2.1 58 hm; omega
              cases ps with
              | nil => simpa [joinWith] using h1
              | cons q qs =>
                have h2 := ih (fun p hp => hps p (by simp [hp]))
                rw [joinWith]
                simp only [List.mem_append, not_or]
                exact ⟨⟨h1, by decide⟩, h2⟩
          exact this parts hq hm
        have hgne : g ≠ [] := by
          rintro rfl
          rw [longQuad_iff] at h4
          simp at h4
        rw [v6Loop_read env g hg58 hgne y st' (by omega), h6, List.nil_append]
        have hv : ∀ b, (v6Piece env { st' with piece := g, prevColon := false } b).res = .error .valueError := fun b =>
          (v6Piece_valueError (st := { st' with piece := g, prevColon := false }) ⟨h5.len, h5.small, h5.idx, h5.comp⟩ (Nat.lt_of_le_of_lt h8 (by decide))).2 ⟨h4, h8⟩
        cases y with
        | nil =>
          rw [v6Loop, if_neg (by dsimp only; omega), if_neg (by simp)]
          exact hv false
        | cons c t =>
          obtain rfl : c = 58 := by
            rcases h3 with h3 | h3
            · cases h3
            · simpa using h3
          rw [v6Loop, if_neg (Nat.not_le.2 (Nat.lt_of_le_of_lt h8 (by decide))), if_neg (by simp), if_neg (by simp)]
          have := hv true
          rcases hr' : v6Piece env { st' with piece := g, prevColon := false } true with ⟨r', l'⟩
          rw [hr'] at this
          cases r' with
          | error e => exact this
          | ok _ => cases this
    · rw [v6Run, List.append_assoc, h5] at h
      cases h

/-- **the ValueError of IPv6 parsing** -/
theorem ipv6Parse_valueError (env : Env) (s : Str) :
    (ipv6Parse env s).res = .error .valueError ↔
      ∃ x g y, s = x ++ g ++ y ∧ EndsColon x ∧ StartsColon y ∧ LongQuad env.maxStrDigits g ∧
        ∃ z a log, ipv6Parse env (x ++ u!"0:0" ++ z) = ⟨.ok a, log⟩ := by
  have hz : ∀ v ∈ [0, 0, 0, 0, 0, 0, 0, 0], v < 65536 := by simp
  have hi0 : ({} : V6).Inv := ⟨rfl, hz, by decide, by intro c hc; cases hc⟩
  have hi1 : ({ pieceIndex := 1, compress := some 1 } : V6).Inv :=
    ⟨rfl, hz, by decide, by intro c hc; injection hc with hc; dsimp only; omega⟩
  have hg0 : ∀ {g : Str}, LongQuad env.maxStrDigits g → ∃ c t, g = c :: t ∧ c ≠ 58 := by
    rintro g ⟨parts, h2, -, rfl, hq, -⟩
    match parts, h2 with
    | p :: q :: ps, _ =>
      obtain ⟨h1, h2, -⟩ := hq p (by simp)
      cases p with
      | nil => exact absurd rfl h1
      | cons c t =>
        refine ⟨c, t ++ u!"." ++ joinWith u!"." (q :: ps), rfl, ?_⟩
        have := h2 c (by simp)
        omega
  have hno : ∀ c t, c ≠ 58 → ∀ x g y z : Str, c :: t = x ++ g ++ y → LongQuad env.maxStrDigits g →
      ipv6Parse env (x ++ u!"0:0" ++ z) = v6Run env (x ++ u!"0:0" ++ z) {} := by
    intro c t hc x g y z h hg
    cases x with
    | nil => exact ipv6Parse_nocolon env _ (by decide)
    | cons d x =>
      injection h with h1 h2
      subst h1
      exact ipv6Parse_nocolon env _ hc
  cases s with
  | nil =>
    constructor
    · intro h
      have := v6Run_valueError_iff env [] {} hi0 rfl
      obtain ⟨x, g, y, h1, -, -, h4, -⟩ := this.1 h
      obtain ⟨c, t, rfl, -⟩ := hg0 h4
      simp at h1
    · rintro ⟨x, g, y, h1, -, -, h4, -⟩
      obtain ⟨c, t, rfl, -⟩ := hg0 h4
      simp at h1
  | cons c t =>
    by_cases hc : c = 58
    · subst hc
      have hxne : ∀ x g y, 58 :: t = x ++ g ++ y → LongQuad env.maxStrDigits g → ∃ x', x = 58 :: x' := by
        intro x g y h hg
        cases x with
        | nil =>
          obtain ⟨c, t', rfl, hc⟩ := hg0 hg
          injection h with h1 _
          exact absurd h1.symm hc
        | cons d x' => injection h with h1 _; exact ⟨x', by rw [h1]⟩
      have hone : ∀ {d : Nat} {u : Str}, d ≠ 58 → ∀ {a log}, ipv6Parse env (58 :: d :: u) ≠ ⟨.ok a, log⟩ := by
        intro d u hd a log h
        rw [ipv6Parse_onecolon env hd] at h
        cases h
      cases t with
      | nil =>
        constructor
        · intro h; cases h
        · rintro ⟨x, g, y, h1, -, -, h4, -⟩
          obtain ⟨x', rfl⟩ := hxne x g y h1 h4
          obtain ⟨c, t, rfl, -⟩ := hg0 h4
          simp at h1
      | cons d u =>
        by_cases hd : d = 58
        · subst hd
          rw [ipv6Parse_colons, v6Run_valueError_iff env u _ hi1 rfl]
          constructor
          · rintro ⟨x, g, y, h1, h2, h3, h4, z, a, log, h5⟩
            refine ⟨58 :: 58 :: x, g, y, by rw [h1]; rfl, .inr ?_, h3, h4, z, a, log, h5⟩
            rcases h2 with rfl | h2
            · rfl
            · cases x with
              | nil => cases h2
              | cons b x => rw [List.getLast?_cons_cons, List.getLast?_cons_cons]; exact h2
          · rintro ⟨x, g, y, h1, h2, h3, h4, z, a, log, h5⟩
            obtain ⟨x', rfl⟩ := hxne x g y h1 h4
            cases x' with
            | nil => exact absurd h5 (hone (d := 48) (by decide))
            | cons b x' =>
              have hb : b = 58 := by injection h1 with _ h1; injection h1 with h1 _; exact h1.symm
              subst hb
              refine ⟨x', g, y, by injection h1 with _ h1; injection h1, ?_, h3, h4, z, a, log, h5⟩
              rcases h2 with h2 | h2
              · cases h2
              · cases x' with
                | nil => exact .inl rfl
                | cons b x => rw [List.getLast?_cons_cons, List.getLast?_cons_cons] at h2; exact .inr h2
        · constructor
          · intro h; rw [ipv6Parse_onecolon env hd] at h; cases h
          · rintro ⟨x, g, y, h1, h2, h3, h4, z, a, log, h5⟩
            obtain ⟨x', rfl⟩ := hxne x g y h1 h4
            cases x' with
            | nil => exact absurd h5 (hone (d := 48) (by decide))
            | cons b x' =>
              have hb : b = d := by injection h1 with _ h1; injection h1 with h1 _; exact h1.symm
              subst hb
              exact absurd h5 (hone hd)
    · rw [ipv6Parse_nocolon env t hc, v6Run_valueError_iff env _ _ hi0 rfl]
      constructor
      · rintro ⟨x, g, y, h1, h2, h3, h4, z, a, log, h5⟩
        exact ⟨x, g, y, h1, h2, h3, h4, z, a, log, by rw [hno c t hc x g y z h1 h4, h5]⟩
      · rintro ⟨x, g, y, h1, h2, h3, h4, z, a, log, h5⟩
        exact ⟨x, g, y, h1, h2, h3, h4, z, a, log, by rw [← hno c t hc x g y z h1 h4, h5]⟩

end Urlstd
