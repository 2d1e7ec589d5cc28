/-
The validation errors that the standard's state machine reports are those that the parser records: the last states.
-/
import Verif.Lemmas.Machine4
import Verif.Spec.Reports

set_option linter.unusedSimpArgs false
set_option linter.unusedVariables false

namespace Urlstd

open Spec (IsStr IsScalarStr encodeCP encodeAfter encoder Letter Cfg Ctx Next Outcome runState codePoint Reports stateErrors)

/-- the error type of a call of `prepend` -/
def LogEv.type : LogEv → VErr
  | .ev t => t
  | .broken t => t

/-- the error types of a log, oldest first -/
def types (log : Log) : List VErr := (log.map LogEv.type).reverse

theorem types_append (a b : Log) : types (a ++ b) = types b ++ types a := by simp [types]
theorem types_nil : types [] = [] := rfl
theorem types_cons (x : LogEv) (a : Log) : types (x :: a) = types a ++ [x.type] := by simp [types]
theorem types_one (t : VErr) : types [.ev t] = [t] := rfl

/-- what the code's host parser records -/
def reportOf (env : Env) (t : Str) (m : Bool) : List VErr := types (hostParse env t m).log

/-- the error types that the code records from a state of its parser on, when the parse succeeds or fails with a URL
parse error -/
inductive Emits (env : Env) (e : Encoding) (s : Str) (base : Option Rec) : PState → Nat → Rec → List VErr → Prop
  | eof {i : Nat} {u : Rec} : Emits env e s base .eof i u []
  | fail {st : PState} {i : Nat} {u : Rec} {err : Err} (hst : st ≠ .eof) (h : (step env e s base none st i u).res = .error err)
      (he : err.isURLParseError = true) : Emits env e s base st i u (types (step env e s base none st i u).log)
  | next {st st' : PState} {i i' : Nat} {u : Rec} {l : List VErr} (hst : st ≠ .eof)
      (h : (step env e s base none st i u).res = .ok (st', i'))
      (hn : Emits env e s base st' i' (step env e s base none st i u).url l) :
      Emits env e s base st i u (types (step env e s base none st i u).log ++ l)

section
variable {env : Env} {e : Encoding} {s : Str} {base : Option Rec}

/-- what follows the result of a step -/
def EmitsOut (env : Env) (e : Encoding) (s : Str) (base : Option Rec) (o : Out) (l : List VErr) : Prop :=
  match o.res with
  | .error err => err.isURLParseError = true ∧ l = types o.log
  | .ok (st, i) => ∃ l', Emits env e s base st i o.url l' ∧ l = types o.log ++ l'

theorem Emits.step {st : PState} {i : Nat} {u : Rec} {l : List VErr} (h : Emits env e s base st i u l) (hst : st ≠ .eof) :
    EmitsOut env e s base (step env e s base none st i u) l := by
  unfold EmitsOut
  cases h with
  | eof => exact absurd rfl hst
  | fail hst h he => rw [h]; exact ⟨he, rfl⟩
  | next hst h hn => rw [h]; exact ⟨_, hn, rfl⟩

theorem EmitsOut.to {st : PState} {i : Nat} {u : Rec} {log : Log} {l : List VErr}
    (h : EmitsOut env e s base (.to st i u log) l) : ∃ l', Emits env e s base st i u l' ∧ l = types log ++ l' := h

theorem EmitsOut.fail {err : Err} {u : Rec} {log : Log} {l : List VErr}
    (h : EmitsOut env e s base (.fail err u log) l) : err.isURLParseError = true ∧ l = types log := h

theorem Emits.done {i : Nat} {u : Rec} {l : List VErr} (h : Emits env e s base .eof i u l) : l = [] := by
  cases h with
  | eof => rfl
  | fail hst => exact absurd rfl hst
  | next hst => exact absurd rfl hst

/-- the log of a run of the parser -/
theorem run_emits (fuel : Nat) : ∀ (st : PState) (i : Nat) (u : Rec) (log : Log),
    (∀ err, (run env e s base none fuel st i u log).res = .error err → err.isURLParseError = true) →
    ∃ l, Emits env e s base st i u l ∧ types (run env e s base none fuel st i u log).log = types log ++ l := by
  induction fuel with
  | zero =>
    intro st i u log h
    unfold run at h ⊢
    by_cases hst : st = .eof
    · rw [if_pos hst, hst]
      exact ⟨[], .eof, by simp⟩
    · rw [if_neg hst] at h
      have := h .outOfFuel rfl
      cases this
  | succ fuel ih =>
    intro st i u log h
    unfold run at h ⊢
    by_cases hst : st = .eof
    · rw [if_pos hst, hst]
      exact ⟨[], .eof, by simp⟩
    · rw [if_neg hst] at h ⊢
      dsimp only at h ⊢
      rcases hs : Urlstd.step env e s base none st i u with ⟨r, u', log'⟩
      rw [hs] at h
      cases r with
      | error err =>
        have he := h err rfl
        have := Emits.fail (env := env) (e := e) (s := s) (base := base) hst (by rw [hs]) he
        rw [hs] at this
        exact ⟨_, this, by dsimp only; rw [types_append]⟩
      | ok r =>
        obtain ⟨st', i'⟩ := r
        dsimp only at h ⊢
        obtain ⟨l, h1, h2⟩ := ih st' i' u' (log' ++ log) h
        have := Emits.next (env := env) (e := e) (s := s) (base := base) hst (by rw [hs]) (by rw [hs]; exact h1)
        rw [hs] at this
        refine ⟨_, this, ?_⟩
        rw [h2, types_append, List.append_assoc]

/-! ### Moves of the machine -/

variable {K : Ctx} {R : Str → Bool → List VErr}

theorem t_adv {i c : Nat} {cs buf buf' : Str} {a b p a' b' p' : Bool} {u u' : Rec} {st st' : Spec.State} {er l : List VErr}
    (hd : s.drop i = c :: cs)
    (h : runState K (some c) cs ⟨st, i, buf, a, b, p, u⟩ = .go ⟨st', i, buf', a', b', p', u'⟩)
    (he : stateErrors K R (some c) cs ⟨st, i, buf, a, b, p, u⟩ = er)
    (hn : Reports K R s ⟨st', (i + 1 : Nat), buf', a', b', p', u'⟩ l) : Reports K R s ⟨st, i, buf, a, b, p, u⟩ (er ++ l) := by
  have h1 : codePoint s ((i : Nat) : Int) = some c := by rw [codePoint_drop, hd]; rfl
  have h2 : Spec.remaining s ((i : Nat) : Int) = cs := by rw [remaining_drop, hd]; rfl
  have := Reports.next (K := K) (input := s) (k := ⟨st, i, buf, a, b, p, u⟩) (k' := ⟨st', i, buf', a', b', p', u'⟩)
    (report := R) (l := l) (by dsimp only; rw [h1, h2]; exact h) (by have := drop_lt hd; show (i : Int) ≠ s.length; omega) hn
  dsimp only at this
  rw [h1, h2, he] at this
  exact this

theorem t_skip {i c : Nat} {c' : Nat} {cs buf buf' : Str} {a b p a' b' p' : Bool} {u u' : Rec} {st st' : Spec.State}
    {er l : List VErr} (hd : s.drop i = c :: c' :: cs)
    (h : runState K (some c) (c' :: cs) ⟨st, i, buf, a, b, p, u⟩ = .go ⟨st', (i : Int) + 1, buf', a', b', p', u'⟩)
    (he : stateErrors K R (some c) (c' :: cs) ⟨st, i, buf, a, b, p, u⟩ = er)
    (hn : Reports K R s ⟨st', (i + 2 : Nat), buf', a', b', p', u'⟩ l) : Reports K R s ⟨st, i, buf, a, b, p, u⟩ (er ++ l) := by
  have h1 : codePoint s ((i : Nat) : Int) = some c := by rw [codePoint_drop, hd]; rfl
  have h2 : Spec.remaining s ((i : Nat) : Int) = c' :: cs := by rw [remaining_drop, hd]; rfl
  have h3 : ((i : Int) + 1 + 1) = ((i + 2 : Nat) : Int) := by omega
  have := Reports.next (K := K) (input := s) (k := ⟨st, i, buf, a, b, p, u⟩) (k' := ⟨st', (i : Int) + 1, buf', a', b', p', u'⟩)
    (report := R) (l := l) (by dsimp only; rw [h1, h2]; exact h)
    (by have := drop_lt (drop_next hd); show (i : Int) + 1 ≠ s.length; omega) (by dsimp only; rw [h3]; exact hn)
  dsimp only at this
  rw [h1, h2, he] at this
  exact this

theorem t_stay {i : Nat} {r buf buf' : Str} {a b p a' b' p' : Bool} {u u' : Rec} {st st' : Spec.State} {er l : List VErr}
    (hd : s.drop i = r) (hi : i ≤ s.length)
    (h : runState K r.head? r.tail ⟨st, i, buf, a, b, p, u⟩ = .go ⟨st', (i : Int) - 1, buf', a', b', p', u'⟩)
    (he : stateErrors K R r.head? r.tail ⟨st, i, buf, a, b, p, u⟩ = er)
    (hn : Reports K R s ⟨st', i, buf', a', b', p', u'⟩ l) : Reports K R s ⟨st, i, buf, a, b, p, u⟩ (er ++ l) := by
  have h1 : codePoint s ((i : Nat) : Int) = r.head? := by rw [codePoint_drop, hd]
  have h2 : Spec.remaining s ((i : Nat) : Int) = r.tail := by rw [remaining_drop, hd]
  have h3 : ((i : Int) - 1 + 1) = i := by omega
  have := Reports.next (K := K) (input := s) (k := ⟨st, i, buf, a, b, p, u⟩) (k' := ⟨st', (i : Int) - 1, buf', a', b', p', u'⟩)
    (report := R) (l := l) (by dsimp only; rw [h1, h2]; exact h)
    (by show (i : Int) - 1 ≠ s.length; omega) (by dsimp only; rw [h3]; exact hn)
  dsimp only at this
  rw [h1, h2, he] at this
  exact this

theorem t_end {i : Nat} {buf buf' : Str} {a b p a' b' p' : Bool} {u u' : Rec} {st st' : Spec.State} {er : List VErr}
    (hd : s.drop i = []) (hi : i ≤ s.length)
    (h : runState K none [] ⟨st, i, buf, a, b, p, u⟩ = .go ⟨st', i, buf', a', b', p', u'⟩)
    (he : stateErrors K R none [] ⟨st, i, buf, a, b, p, u⟩ = er) : Reports K R s ⟨st, i, buf, a, b, p, u⟩ er := by
  have h1 : codePoint s ((i : Nat) : Int) = none := by rw [codePoint_drop, hd]; rfl
  have h2 : Spec.remaining s ((i : Nat) : Int) = [] := by rw [remaining_drop, hd]; rfl
  have := Reports.eof (K := K) (input := s) (k := ⟨st, i, buf, a, b, p, u⟩) (k' := ⟨st', i, buf', a', b', p', u'⟩)
    (report := R) (by dsimp only; rw [h1, h2]; exact h) (by have := drop_nil hd hi; show (i : Int) = s.length; omega)
  dsimp only at this
  rw [h1, h2, he] at this
  exact this

theorem t_fail {i : Nat} {r buf : Str} {a b p : Bool} {u u' : Rec} {st : Spec.State} {er : List VErr} (hd : s.drop i = r)
    (h : runState K r.head? r.tail ⟨st, i, buf, a, b, p, u⟩ = .failure u')
    (he : stateErrors K R r.head? r.tail ⟨st, i, buf, a, b, p, u⟩ = er) : Reports K R s ⟨st, i, buf, a, b, p, u⟩ er := by
  have h1 : codePoint s ((i : Nat) : Int) = r.head? := by rw [codePoint_drop, hd]
  have h2 : Spec.remaining s ((i : Nat) : Int) = r.tail := by rw [remaining_drop, hd]
  have := Reports.failure (K := K) (input := s) (k := ⟨st, i, buf, a, b, p, u⟩) (u := u') (report := R)
    (by dsimp only; rw [h1, h2]; exact h)
  dsimp only at this
  rw [h1, h2, he] at this
  exact this

/-! ### URL units -/

theorem noncharacter_iff {c : Nat} (hc : c ≤ 0x10FFFF) : Spec.Noncharacter c ↔ isNonchar c = true := by
  unfold Spec.Noncharacter isNonchar
  simp only [Bool.or_eq_true, Bool.and_eq_true, decide_eq_true_eq]
  constructor
  · rintro (h | ⟨pl, _, h⟩)
    · exact .inl h
    · right; omega
  · rintro (h | h)
    · exact .inl h
    · right; exact ⟨c / 0x10000, by omega, by omega⟩

theorem letter_digit_alnum (c : Nat) : (Letter c ∨ Spec.Digit c) ↔ isAlnum c = true := by
  unfold Letter Spec.Digit isAlnum isAlpha isDigit
  simp only [Bool.or_eq_true, Bool.and_eq_true, decide_eq_true_eq]

theorem urlCodePoint_iff (c : Nat) : Spec.URLCodePoint c ↔ isUrlCP c = true := by
  unfold Spec.URLCodePoint isUrlCP
  rw [← or_assoc, letter_digit_alnum]
  simp only [Bool.or_eq_true, Bool.and_eq_true, decide_eq_true_eq, Bool.not_eq_true', List.contains_iff_mem, or_assoc]
  refine or_congr Iff.rfl (or_congr Iff.rfl ?_)
  constructor
  · rintro ⟨h1, h2, h3, h4⟩
    rw [noncharacter_iff (by omega)] at h4
    unfold Spec.Surrogate at h3
    unfold isHigh isLow
    simp only [Bool.and_eq_false_iff, decide_eq_false_iff_not, Bool.not_eq_true] at h4 ⊢
    exact ⟨⟨⟨⟨h1, h2⟩, by omega⟩, by omega⟩, h4⟩
  · rintro ⟨⟨⟨⟨h1, h2⟩, h3⟩, h3'⟩, h4⟩
    rw [noncharacter_iff (by omega), h4]
    unfold Spec.Surrogate
    unfold isHigh at h3
    unfold isLow at h3'
    simp only [Bool.and_eq_false_iff, decide_eq_false_iff_not] at h3 h3'
    exact ⟨h1, h2, by omega, by simp⟩

theorem unitErrors_eq (c : Nat) (cs : Str) : Spec.unitErrors (some c) cs = types (unitLog c cs) := by
  unfold Spec.unitErrors unitLog
  dsimp only
  simp only [urlCodePoint_iff]
  have hx : (decide (cs.length < 2) || (cs.take 2).any (!isHex ·)) = !Spec.startsWithTwoHex cs := by
    rcases cs with _ | ⟨x, _ | ⟨y, t⟩⟩
    · rfl
    · rfl
    · simp only [List.length_cons, List.take_succ_cons, List.take_zero, List.any_cons, List.any_nil, Spec.startsWithTwoHex,
        Bool.or_false, Bool.not_and]
      have : decide (t.length + 1 + 1 < 2) = false := by rw [decide_eq_false_iff_not]; omega
      rw [this, Bool.false_or, isHex_spec]
  rw [hx]
  by_cases h1 : c = c!"%"
  · subst h1
    cases h : Spec.startsWithTwoHex cs <;> rfl
  · rw [if_neg (c := c = c!"%" ∧ _) (by simp [h1])]
    cases h : isUrlCP c
    · rw [if_pos (by simp [h1]), if_pos (by simp [h1])]; rfl
    · rw [if_neg (by simp), if_neg (by simp), if_neg (by simp [h1])]; rfl

/-! ### fragment -/

theorem t_fragment_loop (rest : Str) : ∀ (i : Nat) (hd : s.drop i = rest) (hi : i ≤ s.length) (buf : Str) (a b p : Bool) (v : Rec),
    Reports K R s ⟨.fragment, i, buf, a, b, p, v⟩ (types (unitsLog rest)) := by
  induction rest with
  | nil =>
    intro i hd hi buf a b p v
    exact t_end hd hi rfl rfl
  | cons c cs ih =>
    intro i hd hi buf a b p v
    show Reports K R s _ (types (unitsLog cs ++ unitLog c cs))
    rw [types_append]
    exact t_adv hd rfl (unitErrors_eq c cs) (ih (i + 1) (drop_next hd) (drop_lt hd) _ _ _ _ _)

theorem t_fragment {rest : Str} {i : Nat} (hd : s.drop i = rest) (hi : i ≤ s.length) (buf : Str) (a b p : Bool) {u v : Rec}
    {l : List VErr} (h : Emits env e s base .fragment i u l) : Reports K R s ⟨.fragment, i, buf, a, b, p, v⟩ l := by
  have h := h.step (by decide)
  have : l = types (unitsLog rest) := by
    change EmitsOut env e s base (parseFragment s i u) l at h
    unfold parseFragment at h
    dsimp only at h
    rw [hd] at h
    split at h
    · rename_i he
      obtain ⟨l', h1, h2⟩ := h.to
      rw [h2, h1.done]
      cases rest with
      | nil => rfl
      | cons => cases he
    · split at h
      · obtain ⟨h1, h2⟩ := h.fail; cases h1
      · obtain ⟨l', h1, h2⟩ := h.to
        rw [h2, h1.done, List.append_nil]
  rw [this]
  exact t_fragment_loop rest i hd hi buf a b p v

/-! ### query -/

theorem t_query_loop (rest : Str) : ∀ (i : Nat) (hd : s.drop i = rest) (hi : i ≤ s.length)
    (mbuf : Str) (log : Log) (buf : Str) (a b p : Bool) (v : Rec),
    (∃ l', types (queryLoop false rest i mbuf log).2.2.2 = types log ++ l' ∧
      ∀ (l : List VErr) (u : Rec), Emits env e s base .fragment (queryLoop false rest i mbuf log).2.2.1 u l →
        Reports (machine env e base none) R s ⟨.query, i, buf, a, b, p, v⟩ (l' ++ l)) := by
  induction rest with
  | nil =>
    intro i hd hi mbuf log buf a b p v
    refine ⟨[], by simp [queryLoop], fun l u h => ?_⟩
    change Emits env e s base .fragment i u l at h
    have hl : l = [] := by
      have := t_fragment (K := machine env e base none) (R := R) hd hi [] false false false (v := v) h
      exact this.unique (t_fragment_loop [] i hd hi [] false false false v)
    subst hl
    have h := run_query (K := machine env e base none) none [] buf i a b p v
    rw [if_pos (by simp), if_neg (by simp)] at h
    exact t_end hd hi h rfl
  | cons c cs ih =>
    intro i hd hi mbuf log buf a b p v
    unfold queryLoop
    have hr := run_query (K := machine env e base none) (some c) cs buf i a b p v
    by_cases hc : c = c!"#"
    · subst hc
      rw [if_pos (by simp)]
      refine ⟨[], by simp, fun l u h => ?_⟩
      dsimp only at h
      rw [if_pos (by rfl), if_pos rfl] at hr
      exact t_adv hd hr rfl (t_fragment (drop_next hd) (drop_lt hd) _ _ _ _ h)
    · rw [if_neg (by simpa using hc)]
      rw [if_neg (by simp [machine]; exact hc)] at hr
      obtain ⟨l', h1, h2⟩ := ih (i + 1) (drop_next hd) (drop_lt hd) (mbuf ++ [c]) (unitLog c cs ++ log) (buf ++ (some c).toList) a b p v
      refine ⟨types (unitLog c cs) ++ l', by rw [h1, types_append, List.append_assoc], fun l u h => ?_⟩
      rw [List.append_assoc]
      refine t_adv hd hr ?_ (h2 l u h)
      show (if (!false && some c == some c!"#") = true then [] else Spec.unitErrors (some c) cs) = _
      rw [if_neg (by simpa using hc), unitErrors_eq]

theorem t_query {rest : Str} {i : Nat} (hd : s.drop i = rest) (hi : i ≤ s.length) (buf : Str) (a b p : Bool) {u v : Rec}
    {l : List VErr} (h : Emits env e s base .query i u l) :
    Reports (machine env e base none) R s ⟨.query, i, buf, a, b, p, v⟩ l := by
  have h := h.step (by decide)
  obtain ⟨l', h1, h2⟩ := t_query_loop (env := env) (e := e) (base := base) (R := R) rest i hd hi [] [] buf a b p v
  change EmitsOut env e s base (parseQuery e s i u none) l at h
  unfold parseQuery at h
  dsimp only at h
  rw [hd] at h
  simp only [Option.isSome_none] at h
  rcases hq : queryLoop false rest i [] [] with ⟨qb, hash, j, log⟩
  rw [hq] at h h1 h2
  dsimp only at h h1 h2
  rw [types_nil, List.nil_append] at h1
  split at h
  · obtain ⟨l2, g1, g2⟩ := h.to
    rw [g2, h1]
    exact h2 _ _ g1
  · split at h
    · obtain ⟨g1, g2⟩ := h.fail; cases g1
    · obtain ⟨l2, g1, g2⟩ := h.to
      rw [g2, h1]
      exact h2 _ _ g1

/-! ### opaque path -/

theorem t_opaque_loop (rest : Str) : ∀ (i : Nat) (hd : s.drop i = rest) (hi : i ≤ s.length)
    (u : Rec) (log : Log) (l : List VErr) (buf : Str) (a b p : Bool) (v : Rec),
    EmitsOut env e s base (opaqueLoop rest i u log) l →
    ∃ l', l = types log ++ l' ∧ Reports (machine env e base none) R s ⟨.opaquePath, i, buf, a, b, p, v⟩ l' := by
  induction rest with
  | nil =>
    intro i hd hi u log l buf a b p v h
    obtain ⟨l', h1, h2⟩ := EmitsOut.to h
    rw [h1.done] at h2
    exact ⟨[], h2, t_end hd hi (by rw [run_opaque, if_neg (by simp), if_neg (by simp)]) rfl⟩
  | cons c cs ih =>
    intro i hd hi u log l buf a b p v h
    unfold opaqueLoop at h
    have hr := run_opaque (K := machine env e base none) (some c) cs buf i a b p v
    by_cases h1 : c = c!"?"
    · subst h1
      rw [if_pos rfl] at h
      rw [if_pos rfl] at hr
      obtain ⟨l', g1, g2⟩ := h.to
      exact ⟨l', g2, t_adv (er := []) hd hr rfl (t_query (drop_next hd) (drop_lt hd) _ _ _ _ g1)⟩
    · rw [if_neg h1] at h
      rw [if_neg (by simpa using h1)] at hr
      by_cases h2 : c = c!"#"
      · subst h2
        rw [if_pos rfl] at h
        rw [if_pos rfl] at hr
        obtain ⟨l', g1, g2⟩ := h.to
        exact ⟨l', g2, t_adv (er := []) hd hr rfl (t_fragment (drop_next hd) (drop_lt hd) _ _ _ _ g1)⟩
      · rw [if_neg h2] at h
        rw [if_neg (by simpa using h2)] at hr
        obtain ⟨l', g1, g2⟩ := ih (i + 1) (drop_next hd) (drop_lt hd) _ _ _ buf a b p _ h
        refine ⟨types (unitLog c cs) ++ l', by rw [g1, types_append, List.append_assoc], t_adv hd hr ?_ g2⟩
        show (if some c = some c!"?" ∨ some c = some c!"#" then [] else Spec.unitErrors (some c) cs) = _
        rw [if_neg (by simpa using ⟨h1, h2⟩), unitErrors_eq]

theorem t_opaque {rest : Str} {i : Nat} (hd : s.drop i = rest) (hi : i ≤ s.length) (buf : Str) (a b p : Bool) {u v : Rec}
    {l : List VErr} (h : Emits env e s base .opaquePath i u l) :
    Reports (machine env e base none) R s ⟨.opaquePath, i, buf, a, b, p, v⟩ l := by
  have h := h.step (by decide)
  change EmitsOut env e s base (parseOpaquePath s i u) l at h
  unfold parseOpaquePath at h
  rw [hd] at h
  obtain ⟨l', h1, h2⟩ := t_opaque_loop (R := R) rest i hd hi u [] l buf a b p v h
  rw [h1]
  exact h2

/-! ### path -/

theorem shorten_scheme (u : Rec) : (Spec.shorten u).scheme = u.scheme := by
  unfold Spec.shorten
  split
  · rfl
  · split <;> rfl

theorem pushSegment_scheme (u : Rec) (t : Str) : (Spec.pushSegment u t).scheme = u.scheme := by
  unfold Spec.pushSegment
  split <;> rfl

theorem seg_scheme (u : Rec) (d1 d2 slash : Bool) (x : Str) :
    (if d1 = true then (if slash = true then Spec.shorten u else Spec.pushSegment (Spec.shorten u) [])
      else if d2 = true then (if slash = true then u else Spec.pushSegment u []) else Spec.pushSegment u x).scheme = u.scheme := by
  cases d1 <;> cases d2 <;> cases slash <;> simp [shorten_scheme, pushSegment_scheme]

theorem t_path_loop (rest : Str) : ∀ (i : Nat) (hd : s.drop i = rest) (hi : i ≤ s.length)
    (sch mbuf : Str) (pp : List Str) (log : Log) (buf : Str) (a b p : Bool) (v : Rec) (hv : v.scheme = sch),
    ∃ l', types (pathLoop sch false rest i mbuf pp log).2.2.2 = types log ++ l' ∧
      ∀ (l : List VErr) (u : Rec), Emits env e s base (pathLoop sch false rest i mbuf pp log).2.1
          (pathLoop sch false rest i mbuf pp log).2.2.1 u l →
        Reports (machine env e base none) R s ⟨.path, i, buf, a, b, p, v⟩ (l' ++ l) := by
  induction rest with
  | nil =>
    intro i hd hi sch mbuf pp log buf a b p v hv
    refine ⟨[], by simp [pathLoop], fun l u h => ?_⟩
    change Emits env e s base .opaquePath i u l at h
    have hl : l = [] := by
      have h1 := t_opaque (R := R) hd hi [] false false false (v := v) h
      have h2 : Reports (machine env e base none) R s ⟨.opaquePath, i, [], false, false, false, v⟩ [] :=
        t_end hd hi (by rw [run_opaque, if_neg (by simp), if_neg (by simp)]) rfl
      exact h1.unique h2
    subst hl
    have hr := run_path (K := machine env e base none) none [] buf i a b p v
    dsimp only at hr
    rw [if_pos (by simp), if_neg (by simp), if_neg (by simp)] at hr
    refine t_end hd hi hr ?_
    simp [stateErrors, Spec.unitErrors]
  | cons c cs ih =>
    intro i hd hi sch mbuf pp log buf a b p v hv
    have hr := run_path (K := machine env e base none) (some c) cs buf i a b p v
    dsimp only at hr
    rw [isSpecial_eq, hv] at hr
    have he : stateErrors (machine env e base none) R (some c) cs ⟨.path, i, buf, a, b, p, v⟩ =
        if c = c!"/" then []
        else if isSpecialScheme sch = true ∧ c = c!"\\" then [.invalidReverseSolidus]
        else if c = c!"?" ∨ c = c!"#" then [] else types (unitLog c cs) := by
      rw [← unitErrors_eq, ← hv, ← isSpecial_eq]
      simp [stateErrors, machine]
    unfold pathLoop
    by_cases h1 : c = c!"/"
    · rw [if_pos h1] at he ⊢
      rw [if_pos (by simp [h1]), if_neg (by simp [h1]), if_neg (by simp [h1])] at hr
      obtain ⟨l', g1, g2⟩ := ih (i + 1) (drop_next hd) (drop_lt hd) sch [] (addSegment sch pp mbuf true) log [] a b p _ ((seg_scheme v _ _ _ _).trans hv)
      exact ⟨l', g1, fun l u h => t_adv (er := []) hd hr he (g2 l u h)⟩
    · rw [if_neg h1] at he ⊢
      by_cases h2 : isSpecialScheme sch = true ∧ c = c!"\\"
      · rw [if_pos h2] at he
        rw [if_pos (by simpa using h2)]
        rw [if_pos (by simp [h2.1, h2.2]), if_neg (by simp [h2.2]), if_neg (by simp [h2.2])] at hr
        obtain ⟨l', g1, g2⟩ := ih (i + 1) (drop_next hd) (drop_lt hd) sch [] (addSegment sch pp mbuf true) (.ev .invalidReverseSolidus :: log) [] a b p _ ((seg_scheme v _ _ _ _).trans hv)
        refine ⟨[.invalidReverseSolidus] ++ l', by rw [g1, types_cons, List.append_assoc]; rfl, fun l u h => ?_⟩
        rw [List.append_assoc]
        exact t_adv hd hr he (g2 l u h)
      · rw [if_neg h2] at he
        rw [if_neg (by simpa using h2)]
        by_cases h3 : c = c!"?"
        · subst h3
          rw [if_pos (.inl rfl)] at he
          rw [if_pos (by rfl)]
          rw [if_pos (by simp [machine]), if_pos rfl] at hr
          exact ⟨[], by simp, fun l u h => t_adv (er := []) hd hr he (t_query (drop_next hd) (drop_lt hd) _ _ _ _ h)⟩
        · rw [if_neg (c := (!false && decide (c = c!"?")) = true) (by simpa using h3)]
          by_cases h4 : c = c!"#"
          · subst h4
            rw [if_pos (.inr rfl)] at he
            rw [if_pos (by rfl)]
            rw [if_pos (by simp [machine]), if_neg (by simp), if_pos rfl] at hr
            exact ⟨[], by simp, fun l u h => t_adv (er := []) hd hr he (t_fragment (drop_next hd) (drop_lt hd) _ _ _ _ h)⟩
          · rw [if_neg (by simpa using ⟨h3, h4⟩)] at he
            rw [if_neg (by simpa using h4)]
            rw [if_neg (by
              simp only [Bool.or_eq_true, Bool.and_eq_true, beq_iff_eq, Option.some.injEq, reduceCtorEq, false_or, not_or]
              exact ⟨⟨h1, h2⟩, fun hh => hh.2.elim h3 h4⟩)] at hr
            obtain ⟨l', g1, g2⟩ := ih (i + 1) (drop_next hd) (drop_lt hd) sch (mbuf ++ [c]) pp (unitLog c cs ++ log) _ a b p v hv
            refine ⟨types (unitLog c cs) ++ l', by rw [g1, types_append, List.append_assoc], fun l u h => ?_⟩
            rw [List.append_assoc]
            exact t_adv hd hr he (g2 l u h)

theorem t_path {rest : Str} {i : Nat} (hd : s.drop i = rest) (hi : i ≤ s.length) (buf : Str) (a b p : Bool) {u v : Rec}
    (hv : v.scheme = u.scheme) {l : List VErr} (h : Emits env e s base .path i u l) :
    Reports (machine env e base none) R s ⟨.path, i, buf, a, b, p, v⟩ l := by
  have h := h.step (by decide)
  change EmitsOut env e s base (parsePath s i u none) l at h
  unfold parsePath at h
  split at h
  · obtain ⟨h1, _⟩ := h.fail; cases h1
  · rename_i pp hpp
    rw [hd] at h
    obtain ⟨l', h1, h2⟩ := t_path_loop (env := env) (e := e) (base := base) (R := R) rest i hd hi u.scheme [] pp [] buf a b p v hv
    simp only [Option.isSome_none] at h
    rcases hq : pathLoop u.scheme false rest i [] pp [] with ⟨pp', st, j, log⟩
    rw [hq] at h h1 h2
    dsimp only at h h1 h2
    obtain ⟨l2, g1, g2⟩ := h.to
    rw [types_nil, List.nil_append] at h1
    rw [g2, h1]
    exact h2 _ _ g1

/-! ### path start -/

theorem t_pathStart {rest : Str} {i : Nat} (hd : s.drop i = rest) (hi : i ≤ s.length) (buf : Str) (a b p : Bool) {u v : Rec}
    (hv : v.scheme = u.scheme) {l : List VErr} (h : Emits env e s base .pathStart i u l) :
    Reports (machine env e base none) R s ⟨.pathStart, i, buf, a, b, p, v⟩ l := by
  have h := h.step (by decide)
  change EmitsOut env e s base (parsePathStart s i u none) l at h
  unfold parsePathStart at h
  dsimp only at h
  rw [hd] at h
  have hr := run_pathStart (K := machine env e base none) rest.head? rest.tail buf i a b p v
  rw [isSpecial_rec, show v.isSpecial = u.isSpecial by unfold Rec.isSpecial; rw [hv]] at hr
  have he : stateErrors (machine env e base none) R rest.head? rest.tail ⟨.pathStart, i, buf, a, b, p, v⟩ =
      if u.isSpecial = true ∧ rest.head? = some c!"\\" then [.invalidReverseSolidus] else [] := by
    have : Spec.isSpecial v.scheme = u.isSpecial := by rw [hv, isSpecial_rec]
    simp [stateErrors, this]
  by_cases h1 : u.isSpecial = true
  · rw [if_pos h1] at h hr
    by_cases h2 : rest.head? = some c!"\\"
    · rw [if_pos h2] at h
      rw [if_pos (.inr h2)] at hr
      rw [if_pos ⟨h1, h2⟩] at he
      obtain ⟨l', g1, g2⟩ := h.to
      rw [g2]
      cases rest with
      | nil => cases h2
      | cons c cs => exact t_adv hd hr he (t_path (drop_next hd) (drop_lt hd) _ _ _ _ hv g1)
    · rw [if_neg h2] at h
      rw [if_neg (fun hh => h2 hh.2)] at he
      by_cases h3 : rest.head? = some c!"/"
      · rw [if_pos h3] at h
        rw [if_pos (.inl h3)] at hr
        obtain ⟨l', g1, g2⟩ := h.to
        rw [g2]
        cases rest with
        | nil => cases h3
        | cons c cs => exact t_adv (er := []) hd hr he (t_path (drop_next hd) (drop_lt hd) _ _ _ _ hv g1)
      · rw [if_neg h3] at h
        rw [if_neg (by rw [not_or]; exact ⟨h3, h2⟩)] at hr
        obtain ⟨l', g1, g2⟩ := h.to
        rw [g2]
        exact t_stay (er := []) hd hi hr he (t_path hd hi _ _ _ _ hv g1)
  · rw [if_neg h1] at h hr
    rw [if_neg (fun hh => h1 hh.1)] at he
    cases rest with
    | nil =>
      rw [if_neg (by simp), if_neg (by simp)] at h
      rw [if_neg (by simp), if_neg (by simp), if_neg (by simp), if_neg (by simp [machine])] at hr
      dsimp only [List.head?_nil] at h
      rw [if_neg (by simp)] at h
      obtain ⟨l', g1, g2⟩ := h.to
      rw [g2, g1.done]
      exact t_end hd hi hr he
    | cons c cs =>
      dsimp only [List.head?_cons, List.tail_cons] at h hr he
      simp only [Option.isNone_none, Bool.true_and, decide_eq_true_eq, Option.some.injEq] at h
      have hovn : (machine env e base none).override.isSome = false := rfl
      simp only [hovn, Bool.not_false, Bool.true_and, beq_iff_eq, Option.some.injEq, ne_eq, reduceCtorEq, not_false_eq_true,
        if_true] at hr
      by_cases h2 : c = c!"?"
      · subst h2
        change EmitsOut env e s base (.to .query (i + 1) { u with query := some [] }) l at h
        have hr : _ = Next.go ⟨.query, i, buf, a, b, p, { v with query := some [] }⟩ := hr
        obtain ⟨l', g1, g2⟩ := h.to
        rw [g2]
        exact t_adv (er := []) hd hr he (t_query (drop_next hd) (drop_lt hd) _ _ _ _ g1)
      · rw [if_neg h2] at h
        rw [if_neg h2] at hr
        by_cases h3 : c = c!"#"
        · subst h3
          change EmitsOut env e s base (.to .fragment (i + 1) { u with fragment := some [] }) l at h
          have hr : _ = Next.go ⟨.fragment, i, buf, a, b, p, { v with fragment := some [] }⟩ := hr
          obtain ⟨l', g1, g2⟩ := h.to
          rw [g2]
          exact t_adv (er := []) hd hr he (t_fragment (drop_next hd) (drop_lt hd) _ _ _ _ g1)
        · rw [if_neg h3] at h
          rw [if_neg h3] at hr
          obtain ⟨l', g1, g2⟩ := h.to
          rw [g2]
          by_cases h4 : c = c!"/"
          · rw [if_pos h4] at hr
            rw [if_pos h4] at g1
            exact t_adv (er := []) hd hr he (t_path (drop_next hd) (drop_lt hd) _ _ _ _ hv g1)
          · rw [if_neg h4] at hr
            rw [if_neg h4] at g1
            exact t_stay (er := []) hd hi hr he (t_path hd hi _ _ _ _ hv g1)

end

end Urlstd
