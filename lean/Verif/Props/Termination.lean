/-
Property C20: URL parsing terminates.
-/
import Verif.Lemmas.Eval

namespace Urlstd.Props

/-- The `while state != EOF` loop as a relation, without any bound on the number of iterations:
`Loop … st i url log n out` says that from state `st` the loop ends with `out` after `n` iterations. -/
inductive Loop (env : Env) (e : Encoding) (s : Str) (base : Option Rec) (ov : Option PState) :
    PState → Nat → Rec → Log → Nat → ParseOut → Prop
  | done (i : Nat) (url : Rec) (log : Log) : Loop env e s base ov .eof i url log 0 ⟨.ok (), url, log⟩
  | raise {st : PState} {i : Nat} {url url' : Rec} {log log' : Log} {err : Err} (h : st ≠ .eof)
      (hs : step env e s base ov st i url = ⟨.error err, url', log'⟩) :
      Loop env e s base ov st i url log 1 ⟨.error err, url', log' ++ log⟩
  | next {st st' : PState} {i i' : Nat} {url url' : Rec} {log log' : Log} {n : Nat} {out : ParseOut}
      (h : st ≠ .eof) (hs : step env e s base ov st i url = ⟨.ok (st', i'), url', log'⟩)
      (hr : Loop env e s base ov st' i' url' (log' ++ log) n out) :
      Loop env e s base ov st i url log (n + 1) out

theorem step_rank {env : Env} {e : Encoding} {s : Str} {base : Option Rec} {ov : Option PState} {st st' : PState}
    {i i' : Nat} {url url' : Rec} {log : Log} (hs : step env e s base ov st i url = ⟨.ok (st', i'), url', log⟩) :
    st'.rank < st.rank := by
  have := sstep_below env e base ov st (s.drop i) url
  rw [← step_on, hs] at this
  exact this

theorem Loop.unique {env : Env} {e : Encoding} {s : Str} {base : Option Rec} {ov : Option PState} {st : PState}
    {i : Nat} {url : Rec} {log : Log} {n m : Nat} {o o' : ParseOut}
    (h : Loop env e s base ov st i url log n o) (h' : Loop env e s base ov st i url log m o') : n = m ∧ o = o' := by
  induction h generalizing m o' with
  | done i url log =>
    cases h' with
    | done => exact ⟨rfl, rfl⟩
    | raise h => exact absurd rfl h
    | next h => exact absurd rfl h
  | raise h hs =>
    cases h' with
    | done => exact absurd rfl h
    | raise _ hs' =>
      rw [hs] at hs'
      simp only [Out.mk.injEq, Except.error.injEq] at hs'
      obtain ⟨rfl, rfl, rfl⟩ := hs'
      exact ⟨rfl, rfl⟩
    | next _ hs' => rw [hs] at hs'; simp at hs'
  | next h hs hr ih =>
    cases h' with
    | done => exact absurd rfl h
    | raise _ hs' => rw [hs] at hs'; simp at hs'
    | next _ hs' hr' =>
      rw [hs] at hs'
      simp only [Out.mk.injEq, Except.ok.injEq, Prod.mk.injEq] at hs'
      obtain ⟨⟨rfl, rfl⟩, rfl, rfl⟩ := hs'
      have := ih hr'
      exact ⟨by omega, this.2⟩

theorem Loop.run {env : Env} {e : Encoding} {s : Str} {base : Option Rec} {ov : Option PState} (fuel : Nat) :
    ∀ {st : PState} {i : Nat} {url : Rec} {log : Log}, st.rank ≤ fuel →
    ∃ n, n ≤ st.rank ∧ Loop env e s base ov st i url log n (run env e s base ov fuel st i url log) := by
  induction fuel with
  | zero =>
    intro st i url log h
    rw [rank_zero (Nat.le_zero.1 h)]
    refine ⟨0, by decide, ?_⟩
    unfold Urlstd.run
    exact .done i url log
  | succ fuel ih =>
    intro st i url log h
    by_cases he : st = .eof
    · subst he
      refine ⟨0, by decide, ?_⟩
      unfold Urlstd.run
      exact .done i url log
    · unfold Urlstd.run
      rw [if_neg he]
      dsimp only
      rcases hs : step env e s base ov st i url with ⟨res, u, l⟩
      cases res with
      | error err =>
        have : 0 < st.rank := Nat.pos_of_ne_zero fun h0 => he (rank_zero h0)
        exact ⟨1, this, .raise he hs⟩
      | ok p =>
        obtain ⟨st', i'⟩ := p
        have hlt := step_rank hs
        obtain ⟨n, hn, hl⟩ := ih (st := st') (i := i') (url := u) (log := l ++ log) (by omega)
        exact ⟨n + 1, by omega, .next he hs hl⟩

/-- C20. From every state, with every input, base, encoding, record and state override, the loop
ends after at most 20 iterations, with exactly one outcome. -/
theorem C20_loop_terminates (env : Env) (e : Encoding) (s : Str) (base : Option Rec) (ov : Option PState)
    (st : PState) (i : Nat) (url : Rec) (log : Log) :
    ∃ n out, n ≤ 20 ∧ Loop env e s base ov st i url log n out ∧
      ∀ m out', Loop env e s base ov st i url log m out' → m = n ∧ out' = out := by
  obtain ⟨n, hn, h⟩ := Loop.run (env := env) (e := e) (s := s) (base := base) (ov := ov) (i := i) (url := url)
    (log := log) st.rank (Nat.le_refl st.rank)
  refine ⟨n, _, Nat.le_trans hn (rank_le st), h, fun m out' h' => ?_⟩
  have := h'.unique h
  exact this

/-- C20. There is no infinite sequence of iterations. -/
theorem C20_no_infinite_run (env : Env) (e : Encoding) (s : Str) (base : Option Rec) (ov : Option PState)
    (st : Nat → PState) (i : Nat → Nat) (url : Nat → Rec) :
    ¬ ∀ k, ∃ log, step env e s base ov (st k) (i k) (url k) = ⟨.ok (st (k + 1), i (k + 1)), url (k + 1), log⟩ := by
  intro h
  have : ∀ k, (st k).rank + k ≤ (st 0).rank := by
    intro k
    induction k with
    | zero => exact Nat.le_refl _
    | succ k ih =>
      obtain ⟨log, hk⟩ := h k
      have := step_rank hk
      omega
  have := this ((st 0).rank + 1)
  omega

/-- C20. `basicParse` is the outcome of the unbounded loop: the model's bound on the number of
iterations has no effect. -/
theorem C20_basicParse_is_loop (env : Env) (urlstring : Str) (base : Option Rec) (e : Encoding)
    (url0 : Option Rec) (ov : Option PState) :
    ∃ n, Loop env e (prepared urlstring url0) base ov (ov.getD .schemeStart) 0 (url0.getD {})
      (initLog urlstring url0) n (basicParse env urlstring base e url0 ov) := by
  rw [basicParse_run]
  obtain ⟨n, _, h⟩ := Loop.run (env := env) (e := e) (s := prepared urlstring url0) (base := base) (ov := ov) (i := 0)
    (url := url0.getD {}) (st := ov.getD .schemeStart) (log := initLog urlstring url0)
    maxSteps (Nat.le_trans (rank_le _) (by decide))
  exact ⟨n, h⟩

example : ∃ st i url log, step exEnv .utf8 u!"http://a/b" none none .schemeStart 0 {} = ⟨.ok (st, i), url, log⟩ :=
  ⟨_, _, _, _, rfl⟩

end Urlstd.Props
