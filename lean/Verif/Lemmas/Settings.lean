/-
Host parsing under two settings of the interpreter.
-/
import Verif.Spec.Settings
import Verif.Lemmas.HostErr
import Verif.Lemmas.PyInt2

namespace Urlstd

open Spec (SameLibrary Within IsStr)

variable {env env' : Env}

theorem SameLibrary.symm (h : SameLibrary env env') : SameLibrary env' env := ⟨h.idna.symm, h.space.symm, h.decimal.symm⟩

theorem Within.mono {m n : Nat} (h : Within env n) (hm : m ≤ n) : Within env m := h.imp id fun h => by omega

theorem intTransform_same (h : SameLibrary env env') (s : Str) : intTransform env s = intTransform env' s := by
  have hg : ∀ s, intTransform.go env s = intTransform.go env' s := by
    intro s
    induction s with
    | nil => rfl
    | cons c cs ih => unfold intTransform.go; rw [ih, h.space, h.decimal]
  unfold intTransform
  rw [hg]

theorem pyInt_same (h : SameLibrary env env') {b : Nat} {s : Str} {v : Int} (hv : pyInt env b s = some v) :
    pyInt env' b s = some v ∨ (pyInt env' b s = none ∧ env'.maxStrDigits ≠ 0) := by
  unfold pyInt at hv ⊢
  rw [← intTransform_same h]
  dsimp only at hv ⊢
  split at hv
  · cases hv
  · rename_i v' d rest hs
    split at hv
    · cases hv
    · rename_i hr
      split at hv
      · cases hv
      · rw [if_neg hr]
        split
        · rename_i hl
          exact .inr ⟨rfl, by simp at hl; omega⟩
        · exact .inl hv

theorem pyInt_short (h : SameLibrary env env') {b : Nat} (hb : 1 ≤ b) {s : Str} (h1 : Within env s.length)
    (h2 : Within env' s.length) : pyInt env b s = pyInt env' b s := by
  unfold pyInt
  rw [← intTransform_same h]
  dsimp only
  have hl1 := splitSign_length ((intTransform env s).dropWhile isPySpace)
  have hl2 := dropRadixPrefix_length b (splitSign ((intTransform env s).dropWhile isPySpace)).2
  have hl3 := intTransform_length env s
  have hl4 := dropWhile_length isPySpace (intTransform env s)
  split
  · rfl
  · rename_i v d rest hs
    have hd := (scanDigits_bound hb _ _ _ _ _ _ _ hs (by simp)).2
    have e1 : (b == 10 && decide (0 < env.maxStrDigits) && decide (env.maxStrDigits < d)) = false := by
      unfold Within at h1; simp; omega
    have e2 : (b == 10 && decide (0 < env'.maxStrDigits) && decide (env'.maxStrDigits < d)) = false := by
      unfold Within at h2; simp; omega
    rw [e1, e2]

theorem parseIPv4Number_same (h : SameLibrary env env') {s : Str} (hv : 0 ≤ (parseIPv4Number env s).1) :
    parseIPv4Number env' s = parseIPv4Number env s ∨ ((parseIPv4Number env' s).1 = -1 ∧ env'.maxStrDigits ≠ 0) := by
  have key : ∀ (b : Nat) (t : Str) (f : Bool),
      0 ≤ (match pyInt env b t with | some v => (v, f) | none => ((-1 : Int), true)).1 →
      (match pyInt env' b t with | some v => (v, f) | none => ((-1 : Int), true)) =
        (match pyInt env b t with | some v => (v, f) | none => ((-1 : Int), true)) ∨
      ((match pyInt env' b t with | some v => (v, f) | none => ((-1 : Int), true)).1 = -1 ∧ env'.maxStrDigits ≠ 0) := by
    intro b t f hv
    cases hp : pyInt env b t with
    | none => rw [hp] at hv; simp at hv
    | some v =>
      rcases pyInt_same h hp with e | ⟨e, h0⟩
      · rw [e]; exact .inl rfl
      · rw [e]; exact .inr ⟨rfl, h0⟩
  match s, hv with
  | [], _ => exact .inl rfl
  | [c], hv => exact key 10 [c] false hv
  | c0 :: c1 :: rest, hv =>
    simp only [parseIPv4Number] at hv ⊢
    by_cases h1 : (c0 == c!"0" && (c1 == c!"x" || c1 == c!"X")) = true
    · rw [if_pos h1] at hv ⊢
      rw [if_pos h1]
      by_cases h2 : rest.isEmpty = true
      · rw [if_pos h2, if_pos h2]; exact .inl rfl
      · rw [if_neg h2] at hv ⊢
        rw [if_neg h2]
        exact key 16 rest true hv
    · rw [if_neg h1] at hv ⊢
      rw [if_neg h1]
      by_cases h2 : (c0 == c!"0") = true
      · rw [if_pos h2] at hv ⊢
        rw [if_pos h2]
        exact key 8 (c1 :: rest) true hv
      · rw [if_neg h2] at hv ⊢
        rw [if_neg h2]
        exact key 10 (c0 :: c1 :: rest) false hv

theorem parseIPv4Number_short (h : SameLibrary env env') {s : Str} (h1 : Within env s.length) (h2 : Within env' s.length) :
    parseIPv4Number env s = parseIPv4Number env' s := by
  match s with
  | [] => rfl
  | [c] => simp only [parseIPv4Number, pyInt_short h (b := 10) (by omega) h1 h2]
  | c0 :: c1 :: rest =>
    have w : ∀ t : Str, t.length ≤ (c0 :: c1 :: rest).length → Within env t.length ∧ Within env' t.length :=
      fun t ht => ⟨Within.mono h1 ht, Within.mono h2 ht⟩
    simp only [parseIPv4Number, pyInt_short h (b := 10) (by omega) h1 h2,
      pyInt_short h (b := 16) (by omega) (w rest (by simp; omega)).1 (w rest (by simp; omega)).2,
      pyInt_short h (b := 8) (by omega) (w (c1 :: rest) (by simp)).1 (w (c1 :: rest) (by simp)).2]

theorem isEndsInANumber_short (h : SameLibrary env env') {s : Str} (h1 : Within env s.length) (h2 : Within env' s.length) :
    isEndsInANumber env s = isEndsInANumber env' s := by
  unfold isEndsInANumber
  dsimp only
  generalize hp : (if (_ : Bool) = true then (splitOn c!"." s).dropLast else splitOn c!"." s) = parts
  have hl : (parts.getLastD []).length ≤ s.length := by
    rcases parts.eq_nil_or_concat with e | ⟨l, x, e⟩
    · rw [e]; simp
    · rw [e]
      have : (l.concat x).getLastD [] = x := by simp [List.getLastD_eq_getLast?]
      rw [this]
      refine splitOn_length (sep := c!".") ?_
      have : x ∈ parts := by rw [e]; simp
      rw [← hp] at this
      split at this
      · exact List.dropLast_subset _ this
      · exact this
  rw [parseIPv4Number_short h (Within.mono h1 hl) (Within.mono h2 hl)]

theorem isEndsInANumber_same (h : SameLibrary env env') (h0 : env'.maxStrDigits = 0) {s : Str} (he : isEndsInANumber env s = true) :
    isEndsInANumber env' s = true := by
  rw [isEndsInANumber_eq, Bool.or_eq_true, decide_eq_true_eq] at he ⊢
  refine he.imp id fun he => ?_
  rcases parseIPv4Number_same h he with e | ⟨-, e⟩
  · rw [e]; exact he
  · exact absurd h0 e

theorem ipv4Numbers_same (h : SameLibrary env env') (parts : List Str) : ∀ ns log m l,
    ipv4Numbers env parts ns log = ⟨.ok m, l⟩ →
    ipv4Numbers env' parts ns log = ⟨.ok m, l⟩ ∨
      (env'.maxStrDigits ≠ 0 ∧ ∃ l', ipv4Numbers env' parts ns log = ⟨.error .ipv4Parse, l'⟩) := by
  induction parts with
  | nil => intro ns log m l h; exact .inl h
  | cons p ps ih =>
    intro ns log m l hm
    unfold ipv4Numbers at hm ⊢
    dsimp only at hm ⊢
    split at hm
    · cases hm
    · rename_i h0
      rcases parseIPv4Number_same h (s := p) (by omega) with e | ⟨e, he⟩
      · rw [e, if_neg h0]
        exact ih _ _ _ _ hm
      · rw [e]; exact .inr ⟨he, _, rfl⟩

theorem ipv4Numbers_short (h : SameLibrary env env') (parts : List Str)
    (hp : ∀ p ∈ parts, Within env p.length ∧ Within env' p.length) : ∀ ns log,
    ipv4Numbers env parts ns log = ipv4Numbers env' parts ns log := by
  induction parts with
  | nil => intro ns log; rfl
  | cons p ps ih =>
    intro ns log
    unfold ipv4Numbers
    dsimp only
    rw [parseIPv4Number_short h (hp p (by simp)).1 (hp p (by simp)).2]
    simp only [ih fun p hp' => hp p (by simp [hp'])]

theorem ipv4Parse_same (h : SameLibrary env env') {s : Str} {n : Nat} (hn : (ipv4Parse env s).res = .ok n) :
    (ipv4Parse env' s).res = .ok n ∨ ((ipv4Parse env' s).res = .error .ipv4Parse ∧ env'.maxStrDigits ≠ 0) ∨
      (ipv4Parse env' s).res = .error .valueError := by
  unfold ipv4Parse at hn ⊢
  dsimp only at hn ⊢
  generalize (if (_ && _) = true then _ else _ : List Str) = parts at hn ⊢
  split at hn
  · cases hn
  · rename_i h4
    rw [if_neg h4]
    split at hn
    · cases hn
    · rename_i numbers log heq
      rcases ipv4Numbers_same h _ _ _ _ _ heq with e | ⟨he, l, e⟩
      · rw [e]
        dsimp only
        split at hn
        · cases hn
        · split at hn
          · split at hn <;> cases hn
          · rename_i g1
            split at hn
            · split at hn <;> cases hn
            · rename_i g2
              rw [if_neg g1, if_neg g2]
              split
              · exact .inr (.inr rfl)
              · exact .inl hn
      · rw [e]; exact .inr (.inl ⟨rfl, he⟩)

theorem ipv4Parse_short (h : SameLibrary env env') {s : Str} (h1 : Within env (2 * s.length)) (h2 : Within env' (2 * s.length)) :
    (ipv4Parse env s).res = (ipv4Parse env' s).res := by
  have num : ∀ p ∈ partsOf s, Within env p.length ∧ Within env' p.length := fun p hp => by
    have := splitOn_length (mem_partsOf hp)
    exact ⟨Within.mono h1 (by omega), Within.mono h2 (by omega)⟩
  have noErr : ∀ {env : Env}, Within env (2 * s.length) → ∀ {ns : List Nat} {l l' : Log},
      ipv4Numbers env (partsOf s) [] l = ⟨.ok ns, l'⟩ → ns.any (strTooLong env) = false := by
    intro env hw ns l l' hns
    rw [Bool.eq_false_iff]
    intro ht
    rw [(ipv4Numbers_ok env _ _ _ _ _ hns).1] at ht
    simp only [List.nil_append, List.any_map, List.any_eq_true, Function.comp] at ht
    obtain ⟨p, hp, ht⟩ := ht
    have h1 := splitOn_length (mem_partsOf hp)
    have h2 := strTooLong_part ht
    unfold Within at hw
    omega
  rw [ipv4Parse_eq, ipv4Parse_eq]
  dsimp only
  split
  · rfl
  · rw [← ipv4Numbers_short h _ num]
    split
    · rfl
    · rename_i ns l heq
      rw [noErr h1 heq, noErr h2 (by rw [← ipv4Numbers_short h _ num]; exact heq)]
      simp only [Bool.and_false, Bool.false_eq_true, if_false]

/-! ### IPv6 -/

theorem ipv4PartValues_same (h : SameLibrary env env') (xs : List Str) : ∀ vs, ipv4PartValues env xs = some vs →
    ipv4PartValues env' xs = some vs ∨ ipv4PartValues env' xs = none := by
  induction xs with
  | nil => intro vs h; exact .inl h
  | cons x xs ih =>
    intro vs hv
    unfold ipv4PartValues at hv ⊢
    split at hv
    · rename_i v ws h1 h2
      cases hv
      rcases pyInt_same h h1 with e | ⟨e, -⟩
      · rcases ih _ h2 with e' | e'
        · rw [e, e']; exact .inl rfl
        · rw [e, e']; exact .inr rfl
      · rw [e]; exact .inr rfl
    · cases hv

theorem ipv4PartValues_short (h : SameLibrary env env') (xs : List Str)
    (hp : ∀ p ∈ xs, Within env p.length ∧ Within env' p.length) : ipv4PartValues env xs = ipv4PartValues env' xs := by
  induction xs with
  | nil => rfl
  | cons x xs ih =>
    unfold ipv4PartValues
    rw [ih fun p hp' => hp p (by simp [hp']), pyInt_short h (by omega) (hp x (by simp)).1 (hp x (by simp)).2]

theorem pyInt16_same (h : SameLibrary env env') (s : Str) : pyInt env 16 s = pyInt env' 16 s := by
  unfold pyInt
  rw [← intTransform_same h]
  rfl

/-- the same, or the bare ValueError -/
def SameOr {α : Type} (a b : Except Err α) : Prop := ∀ x, a = .ok x → b = .ok x ∨ b = .error .valueError

theorem v6Piece_same (h : SameLibrary env env') (st : V6) (b : Bool) : SameOr (v6Piece env st b).res (v6Piece env' st b).res := by
  intro x hx
  unfold v6Piece v6IPv4 at hx ⊢
  rw [← pyInt16_same h]
  split
  · rename_i h1; rw [if_pos h1] at hx; exact .inl hx
  · rename_i h1; rw [if_neg h1] at hx
    split
    · rename_i h2; rw [if_pos h2] at hx; exact .inl hx
    · rename_i h2; rw [if_neg h2] at hx
      dsimp only at hx ⊢
      split
      · rename_i h3; rw [if_pos h3] at hx; exact .inl hx
      · rename_i h3; rw [if_neg h3] at hx
        split
        · rename_i h4; rw [if_pos h4] at hx; exact .inl hx
        · rename_i h4; rw [if_neg h4] at hx
          cases hv : ipv4PartValues env (splitOn c!"." st.piece) with
          | none => rw [hv] at hx; cases hx
          | some vs =>
            rw [hv] at hx
            rcases ipv4PartValues_same h _ _ hv with e | e
            · rw [e]; exact .inl hx
            · rw [e]; exact .inr rfl

theorem v6Loop_same (h : SameLibrary env env') (s : Str) : ∀ st, SameOr (v6Loop env s st).res (v6Loop env' s st).res := by
  induction s with
  | nil =>
    intro st x hx
    unfold v6Loop at hx ⊢
    split
    · rename_i h1; rw [if_pos h1] at hx; exact .inl hx
    · rename_i h1; rw [if_neg h1] at hx
      split
      · rename_i h2; rw [if_pos h2] at hx; exact .inl hx
      · rename_i h2; rw [if_neg h2] at hx
        exact v6Piece_same h st false x hx
  | cons c cs ih =>
    intro st x hx
    unfold v6Loop at hx ⊢
    split
    · rename_i h1; rw [if_pos h1] at hx; exact .inl hx
    · rename_i h1; rw [if_neg h1] at hx
      split
      · rename_i h2; rw [if_pos h2] at hx; exact ih _ x hx
      · rename_i h2; rw [if_neg h2] at hx
        split
        · rename_i h3; rw [if_pos h3] at hx
          split
          · rename_i h4; rw [if_pos h4] at hx; exact .inl hx
          · rename_i h4; rw [if_neg h4] at hx; exact ih _ x hx
        · rename_i h3; rw [if_neg h3] at hx
          cases hp : v6Piece env st true with
          | mk r l =>
            rw [hp] at hx
            cases r with
            | error e => cases hx
            | ok st' =>
              rcases v6Piece_same h st true st' (by rw [hp]) with e | e
              · cases hp' : v6Piece env' st true with
                | mk r' l' =>
                  rw [hp'] at e
                  cases e
                  exact ih st' x hx
              · cases hp' : v6Piece env' st true with
                | mk r' l' =>
                  rw [hp'] at e
                  cases e
                  exact .inr rfl

theorem ipv6Parse_same (h : SameLibrary env env') (s : Str) : SameOr (ipv6Parse env s).res (ipv6Parse env' s).res := by
  intro x hx
  unfold ipv6Parse at hx ⊢
  dsimp only at hx ⊢
  split at hx
  · cases hx
  · rename_i rest st heq
    unfold v6Run at hx ⊢
    cases hp : v6Loop env rest st with
    | mk r l =>
      rw [hp] at hx
      cases r with
      | error e => cases hx
      | ok st' =>
        have := v6Loop_same h rest st st' (by rw [hp])
        cases hp' : v6Loop env' rest st with
        | mk r' l' =>
          rw [hp'] at this
          rcases this with e | e
          · cases e; exact .inl hx
          · cases e; exact .inr rfl

theorem v6Piece_short (h : SameLibrary env env') {st : V6} (h1 : Within env st.piece.length) (h2 : Within env' st.piece.length) (b : Bool) :
    v6Piece env st b = v6Piece env' st b := by
  have := ipv4PartValues_short h (splitOn c!"." st.piece) fun p hp => by
    have := splitOn_length hp
    exact ⟨Within.mono h1 this, Within.mono h2 this⟩
  unfold v6Piece v6IPv4
  dsimp only
  rw [this, pyInt16_same h]

theorem v6Piece_empties {st st' : V6} {b : Bool} {l : Log} (h : v6Piece env st b = ⟨.ok st', l⟩) : st'.piece = [] := by
  unfold v6Piece v6IPv4 at h
  split at h
  · rename_i h1
    cases h
    exact List.isEmpty_iff.1 h1
  · split at h
    · split at h
      · cases h
      · split at h
        · cases h
        · split at h
          · cases h; rfl
          · cases h
    · dsimp only at h
      split at h
      · cases h
      · split at h
        · cases h
        · split at h
          · cases h
          · split at h
            · cases h
            · split at h
              · split at h
                · cases h; rfl
                · cases h
              · cases h

theorem v6Loop_short (h : SameLibrary env env') (s : Str) : ∀ st : V6, Within env (st.piece.length + s.length) →
    Within env' (st.piece.length + s.length) → v6Loop env s st = v6Loop env' s st := by
  induction s with
  | nil =>
    intro st h1 h2
    unfold v6Loop
    rw [v6Piece_short h (Within.mono h1 (by simp)) (Within.mono h2 (by simp))]
  | cons c cs ih =>
    intro st h1 h2
    simp only [List.length_cons] at h1 h2
    unfold v6Loop
    rw [v6Piece_short h (Within.mono h1 (by simp)) (Within.mono h2 (by simp)),
      ih _ (Within.mono h1 (by simp; omega)) (Within.mono h2 (by simp; omega)),
      ih { st with pieceIndex := st.pieceIndex + 1, compress := some (st.pieceIndex + 1) }
        (Within.mono h1 (by simp)) (Within.mono h2 (by simp))]
    cases hp : v6Piece env' st true with
    | mk r l =>
      cases r with
      | error e => rfl
      | ok st' =>
        have := v6Piece_empties hp
        dsimp only
        rw [ih st' (Within.mono h1 (by rw [this]; simp; omega)) (Within.mono h2 (by rw [this]; simp; omega))]

theorem ipv6Parse_within (h : SameLibrary env env') {s : Str} (h1 : Within env s.length) (h2 : Within env' s.length) :
    ipv6Parse env s = ipv6Parse env' s := by
  have key : ∀ (rest : Str) (st : V6), rest.length ≤ s.length → st.piece = [] → v6Run env rest st = v6Run env' rest st := by
    intro rest st hl hst
    unfold v6Run
    rw [v6Loop_short h rest st (Within.mono h1 (by rw [hst]; simpa using hl)) (Within.mono h2 (by rw [hst]; simpa using hl))]
  unfold ipv6Parse
  dsimp only
  split
  · rfl
  · rename_i rest st heq
    split at heq
    · cases heq; exact key _ _ (by simp; omega) rfl
    · cases heq
    · cases heq; exact key _ _ (Nat.le_refl _) rfl

/-! ### Hosts -/

theorem domainToAscii_same (h : SameLibrary env env') (d : Str) (b : Bool) : domainToAscii env d b = domainToAscii env' d b := by
  unfold domainToAscii
  rw [h.idna]

/-- what the second interpreter makes of a host that the first accepts -/
theorem hostParse_same (h : SameLibrary env env') {t : Str} {m : Bool} {v : Host} (hv : (hostParse env t m).res = .ok v) :
    (hostParse env' t m).res = .ok v ∨ (hostParse env' t m).res = .error .valueError ∨
    (m = false ∧ (hostParse env' t m).res = .error .ipv4Parse ∧ ((∃ n, v = .ipv4 n ∧ env'.maxStrDigits ≠ 0) ∨
      ∃ a, v = .str a ∧ isEndsInANumber env' a = true ∧ isEndsInANumber env a = false)) ∨
    (m = false ∧ ∃ a n, v = .ipv4 n ∧ (hostParse env' t m).res = .ok (.str a) ∧ isEndsInANumber env a = true ∧ isEndsInANumber env' a = false) ∨
    (m = false ∧ ∃ a n, v = .str a ∧ (hostParse env' t m).res = .ok (.ipv4 n) ∧ isEndsInANumber env' a = true ∧ isEndsInANumber env a = false) := by
  unfold hostParse at hv ⊢
  split at hv
  · exact .inl hv
  · rename_i h0 tl
    split at hv
    · rename_i g1
      rw [if_pos g1]
      split at hv
      · cases hv
      · rename_i g2
        rw [if_neg g2]
        have := ipv6Parse_same h tl.dropLast
        split at hv
        · rename_i a log heq
          cases hv
          rcases this a (by rw [heq]) with e | e
          · left
            cases hp : ipv6Parse env' tl.dropLast with
            | mk r l => rw [hp] at e; cases e; rfl
          · right; left
            cases hp : ipv6Parse env' tl.dropLast with
            | mk r l => rw [hp] at e; cases e; rfl
        · cases hv
    · rename_i g1
      rw [if_neg g1]
      split at hv
      · rename_i g2
        rw [if_pos g2]
        exact .inl hv
      · rename_i g2
        simp only [Bool.not_eq_true] at g2
        subst g2
        rw [← domainToAscii_same h]
        simp only [Bool.false_eq_true, if_false]
        split at hv
        · cases hv
        · rename_i ascii log hd
          split at hv
          · cases hv
          · rename_i g3
            rw [if_neg g3]
            split at hv
            · rename_i g4
              split at hv
              · rename_i n log' heq
                cases hv
                split
                · rcases ipv4Parse_same h (s := ascii) (n := n) (by rw [heq]) with e | ⟨e, he⟩ | e
                  · cases hp : ipv4Parse env' ascii with
                    | mk r l => rw [hp] at e; cases e; exact .inl rfl
                  · cases hp : ipv4Parse env' ascii with
                    | mk r l => rw [hp] at e; cases e; exact .inr (.inr (.inl ⟨trivial, rfl, .inl ⟨n, rfl, he⟩⟩))
                  · cases hp : ipv4Parse env' ascii with
                    | mk r l => rw [hp] at e; cases e; exact .inr (.inl rfl)
                · rename_i g5
                  exact .inr (.inr (.inr (.inl ⟨trivial, ascii, n, rfl, rfl, g4, by simpa using g5⟩)))
              · cases hv
            · rename_i g4
              cases hv
              split
              · rename_i g5
                cases hp : ipv4Parse env' ascii with
                | mk r l =>
                  cases r with
                  | ok n => exact .inr (.inr (.inr (.inr ⟨trivial, ascii, n, rfl, rfl, g5, by simpa using g4⟩)))
                  | error e =>
                    rcases ipv4Parse_error hp with rfl | rfl
                    · exact .inr (.inr (.inl ⟨trivial, rfl, .inr ⟨ascii, rfl, g5, by simpa using g4⟩⟩))
                    · exact .inr (.inl rfl)
              · exact .inl rfl

theorem hostParse_short (h : SameLibrary env env') {t : Str} (hs : IsStr t) {m : Bool} (h1 : ¬ LongInput env t.length)
    (h2 : ¬ LongInput env' t.length) : (hostParse env t m).res = (hostParse env' t m).res := by
  have w : ∀ {env : Env} {n k : Nat}, ¬ LongInput env n → k ≤ n → Within env k := by
    intro env n k hl hk
    by_cases h0 : env.maxStrDigits = 0
    · exact .inl h0
    · by_cases h1 : env.maxStrDigits < n
      · exact absurd ⟨h0, .inl h1⟩ hl
      · exact .inr (by omega)
  have w2 : ∀ {env : Env} {d a : Str} {l : Log}, ¬ LongInput env t.length → d.length ≤ 4 * t.length →
      domainToAscii env d false = ⟨.ok a, l⟩ → Within env (2 * a.length) := by
    intro env d a l hl hd ha
    by_cases h0 : env.maxStrDigits = 0
    · exact .inl h0
    · by_cases h1 : env.maxStrDigits < 2 * a.length
      · exact absurd ⟨h0, .inr ⟨d, a, l, hd, ha, h1⟩⟩ hl
      · exact .inr (by omega)
  have hdl := decoded_length hs
  unfold hostParse
  split
  · rfl
  · rename_i h0 tl
    split
    · split
      · rfl
      · rw [ipv6Parse_within h (w h1 (by simp; omega)) (w h2 (by simp; omega))]
    · split
      · rfl
      · rw [domainToAscii_same h]
        split
        · rfl
        · rename_i ascii log hd
          have hw1 := w2 h1 hdl (by rw [domainToAscii_same h]; exact hd)
          have hw2 := w2 h2 hdl hd
          split
          · rfl
          · rw [isEndsInANumber_short h (Within.mono hw1 (by omega)) (Within.mono hw2 (by omega))]
            split
            · have := ipv4Parse_short h hw1 hw2
              cases hp : ipv4Parse env ascii with
              | mk r l =>
                cases hp' : ipv4Parse env' ascii with
                | mk r' l' =>
                  rw [hp, hp'] at this
                  cases this
                  cases r <;> rfl
            · rfl

end Urlstd
