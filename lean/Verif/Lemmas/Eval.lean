/-
The parser's loop without fuel: every step lowers the rank of the state.
-/
import Verif.Lemmas.SuffixEq2

set_option linter.unusedSimpArgs false

namespace Urlstd

/-- the target of a step has a smaller rank -/
def SOut.below (n : Nat) : SOut → Prop
  | .to st _ _ => st.rank < n
  | .fail _ _ => True

/-- close a goal about the rank of a concrete state -/
macro "rk" : tactic =>
  `(tactic| (simp only [SOut.below]; first | trivial | decide | (split <;> decide)))

theorem below_ite {c : Prop} [Decidable c] {n : Nat} {a b : SOut} (ha : a.below n) (hb : b.below n) :
    (if c then a else b).below n := by split <;> assumption

theorem below_to {st : PState} {n : Nat} (h : st.rank < n) (r : Str) (u : Rec) : (SOut.to st r u).below n := h
theorem below_fail {n : Nat} (e : Err) (u : Rec) : (SOut.fail e u).below n := trivial

theorem afterPath_below {st : PState} {n : Nat} (h : st.rank < n) (hn : 3 < n) (r : Str) (u : Rec) :
    (afterPath st r u).below n := by
  unfold afterPath
  cases r with
  | nil => exact h
  | cons c cs => exact below_ite (by exact hn) (by show 2 < n; omega)

theorem sHostEnd_below (env : Env) (ov : Bool) (b r : Str) (u : Rec) : (sHostEnd env ov b r u).below 10 := by
  unfold sHostEnd
  refine below_ite trivial (below_ite (by rk) ?_)
  cases (hostParse env b (!u.isSpecial)).res with
  | error e => trivial
  | ok h => rk

theorem below_mono {n m : Nat} (h : n ≤ m) {o : SOut} (ho : o.below n) : o.below m := by
  cases o with
  | to st r u => exact Nat.lt_of_lt_of_le ho h
  | fail e u => trivial

theorem sHost_below (env : Env) (ov : Option PState) (r : Str) (u : Rec) : (sHost env ov r u).below 11 := by
  unfold sHost
  refine below_ite (by rk) ?_
  unfold sHostGo
  dsimp only
  split
  · exact below_mono (by decide) (sHostEnd_below ..)
  · refine below_ite (below_ite trivial (below_ite (by rk) ?_)) (below_mono (by decide) (sHostEnd_below ..))
    cases (hostParse env _ (!u.isSpecial)).res with
    | error e => trivial
    | ok h => rk

theorem sPort_below (env : Env) (ov : Option PState) (r : Str) (u : Rec) : (sPort env ov r u).below 10 := by
  have h : ∀ b r, (sPortEnd env ov.isSome b r u).below 10 := by
    intro b r
    unfold sPortEnd
    dsimp only
    refine below_ite (by rk) ?_
    cases pyInt env 10 b with
    | none => trivial
    | some v => exact below_ite trivial (by rk)
  unfold sPort sPortGo
  split
  · exact h _ _
  · exact below_ite (h _ _) trivial

theorem sFile_below (base : Option Rec) (r : Str) (u : Rec) : (sFile base r u).below 9 := by
  have h : ∀ r u, (sFilePath base r u).below 9 := by
    intro r u
    unfold sFilePath
    cases base with
    | none => rk
    | some b =>
      refine below_ite ?_ (by rk)
      cases r with
      | nil => rk
      | cons c cs =>
        refine below_ite (by rk) (below_ite (by rk) ?_)
        refine below_ite ?_ (by rk)
        cases shortenRec _ with
        | none => trivial
        | some u => rk
  unfold sFile
  cases r with
  | nil => exact h _ _
  | cons c cs => exact below_ite (by rk) (h _ _)

theorem sFileSlash_below (base : Option Rec) (r : Str) (u : Rec) : (sFileSlash base r u).below 8 := by
  have h : ∀ r u, (sFileSlashPath base r u).below 8 := by
    intro r u
    unfold sFileSlashPath
    cases base with
    | none => rk
    | some b =>
      refine below_ite ?_ (by rk)
      dsimp only
      split
      · refine below_ite ?_ (by rk)
        split
        · rk
        · trivial
      · rk
  unfold sFileSlash
  cases r with
  | nil => exact h _ _
  | cons c cs => exact below_ite (by rk) (h _ _)

theorem sFileHost_below (env : Env) (ov : Option PState) (r : Str) (u : Rec) :
    (sFileHost env ov r u).below 7 := by
  unfold sFileHost sFileHostEnd
  refine below_ite (by rk) (below_ite (by rk) ?_)
  cases (hostParse env _ (!u.isSpecial)).res with
  | error e => trivial
  | ok h => rk

theorem sPathStart_below (ov : Option PState) (r : Str) (u : Rec) : (sPathStart ov r u).below 6 := by
  unfold sPathStart
  cases r with
  | nil =>
    refine below_ite (by rk) (below_ite ?_ (by rk))
    cases u.path with
    | list p => rk
    | «opaque» t => trivial
  | cons c cs =>
    exact below_ite (by rk) (below_ite (by rk)
      (below_ite (by rk) (below_ite (by rk)
        (by rk))))

theorem sScheme_below (base : Option Rec) (ov : Option PState) (r : Str) (u : Rec) :
    (sScheme base ov r u).below 20 := by
  unfold sScheme
  cases takeScheme r with
  | none => exact below_ite (by rk) trivial
  | some br =>
    refine below_ite (by rk) (below_ite (by rk) ?_)
    refine below_ite (below_ite (by rk) (by rk)) ?_
    exact below_ite (by rk) (by rk)

theorem sstep_below (env : Env) (e : Encoding) (base : Option Rec) (ov : Option PState) (st : PState)
    (rest : Str) (url : Rec) : (sstep env e base ov st rest url).below st.rank := by
  cases st
  case eof => trivial
  case scheme => trivial
  case authority =>
    show (sAuthority rest url).below 12
    unfold sAuthority
    dsimp only
    split
    · rk
    · exact below_ite trivial (by rk)
  case fileHost => exact sFileHost_below ..
  case fileSlash => exact sFileSlash_below ..
  case file => exact sFile_below ..
  case fragment =>
    show (sFragment rest url).below 2
    unfold sFragment
    refine below_ite (by rk) ?_
    split
    · trivial
    · rk
  case hostname => exact sHost_below ..
  case host => exact sHost_below ..
  case noScheme =>
    show (sNoScheme base rest url).below 19
    unfold sNoScheme
    split
    · trivial
    · exact below_ite trivial (below_ite (by rk) (below_ite (by rk)
        (by rk)))
  case opaquePath => exact afterPath_below (by decide) (by decide) _ _
  case pathOrAuthority => exact below_ite (by rk) (by rk)
  case pathStart => exact sPathStart_below ..
  case path =>
    show (sPath ov rest url).below 5
    unfold sPath
    split
    · trivial
    · exact afterPath_below (by decide) (by decide) _ _
  case port => exact sPort_below ..
  case query =>
    show (sQuery e ov rest url).below 3
    unfold sQuery
    refine below_ite (by rk) ?_
    split
    · trivial
    · rk
  case relativeSlash =>
    show (sRelativeSlash base rest url).below 15
    unfold sRelativeSlash
    refine below_ite (by rk) (below_ite (by rk) ?_)
    split
    · trivial
    · rk
  case relative =>
    show (sRelative base rest url).below 16
    unfold sRelative
    split
    · trivial
    · refine below_ite trivial ?_
      split
      · rk
      · refine below_ite (by rk) (below_ite (by rk)
          (below_ite (by rk) ?_))
        split
        · rk
        · trivial
  case schemeStart => exact sScheme_below ..
  case specialAuthorityIgnoreSlashes => exact (by decide : (PState.rank .authority) < 13)
  case specialAuthoritySlashes => exact below_ite (by rk) (by rk)
  case specialRelativeOrAuthority =>
    exact below_ite (by rk) (by rk)

theorem rank_zero {st : PState} (h : st.rank = 0) : st = .eof := by cases st <;> simp [PState.rank] at h ⊢
theorem rank_le (st : PState) : st.rank ≤ 20 := by cases st <;> decide

/-- The loop of the parser on the remaining input: what it returns or raises, and the record. -/
def srun (env : Env) (e : Encoding) (base : Option Rec) (ov : Option PState) :
    Nat → PState → Str → Rec → Except Err Unit × Rec
  | fuel, st, rest, url =>
    if st = .eof then (.ok (), url)
    else
      match fuel with
      | 0 => (.error .outOfFuel, url)
      | fuel + 1 =>
        match sstep env e base ov st rest url with
        | .fail err url => (.error err, url)
        | .to st' rest' url => srun env e base ov fuel st' rest' url

/-- The parser started in a state. -/
def eval (env : Env) (e : Encoding) (base : Option Rec) (ov : Option PState) (st : PState) (rest : Str) (url : Rec) :
    Except Err Unit × Rec := srun env e base ov st.rank st rest url

theorem srun_eof (env : Env) (e : Encoding) (base : Option Rec) (ov : Option PState) (n : Nat) (rest : Str) (url : Rec) :
    srun env e base ov n .eof rest url = (.ok (), url) := by
  unfold srun; rw [if_pos rfl]

theorem srun_fuel (env : Env) (e : Encoding) (base : Option Rec) (ov : Option PState) (n : Nat) :
    ∀ (m : Nat) (st : PState) (rest : Str) (url : Rec), st.rank ≤ n → st.rank ≤ m →
      srun env e base ov n st rest url = srun env e base ov m st rest url := by
  induction n with
  | zero =>
    intro m st rest url h _
    rw [rank_zero (Nat.le_zero.1 h), srun_eof, srun_eof]
  | succ n ih =>
    intro m st rest url h1 h2
    by_cases he : st = .eof
    · rw [he, srun_eof, srun_eof]
    · cases m with
      | zero => exact absurd (rank_zero (Nat.le_zero.1 h2)) he
      | succ m =>
        unfold srun
        rw [if_neg he, if_neg he]
        have hb := sstep_below env e base ov st rest url
        cases hs : sstep env e base ov st rest url with
        | fail err u => rfl
        | to st' r u =>
          rw [hs] at hb
          have hb : st'.rank < st.rank := hb
          exact ih m st' r u (by omega) (by omega)

/-- the outcome of a step, continued -/
def SOut.andThen (env : Env) (e : Encoding) (base : Option Rec) (ov : Option PState) : SOut → Except Err Unit × Rec
  | .fail err url => (.error err, url)
  | .to st rest url => eval env e base ov st rest url

theorem eval_eof (env : Env) (e : Encoding) (base : Option Rec) (ov : Option PState) (rest : Str) (url : Rec) :
    eval env e base ov .eof rest url = (.ok (), url) := srun_eof ..

theorem eval_step (env : Env) (e : Encoding) (base : Option Rec) (ov : Option PState) {st : PState} (h : st ≠ .eof)
    (rest : Str) (url : Rec) :
    eval env e base ov st rest url = (sstep env e base ov st rest url).andThen env e base ov := by
  unfold eval
  cases hr : st.rank with
  | zero => exact absurd (rank_zero hr) h
  | succ n =>
    unfold srun
    rw [if_neg h]
    have hb := sstep_below env e base ov st rest url
    cases hs : sstep env e base ov st rest url with
    | fail err u => rfl
    | to st' r u =>
      rw [hs] at hb
      have hb : st'.rank < st.rank := hb
      exact srun_fuel env e base ov n _ st' r u (by omega) (Nat.le_refl _)

/-- the loop of the model agrees with `eval`, whatever fuel it has beyond the rank of the state -/
theorem run_eval (env : Env) (e : Encoding) (s : Str) (base : Option Rec) (ov : Option PState) (n : Nat) :
    ∀ (st : PState) (i : Nat) (url : Rec) (log : Log), st.rank ≤ n →
      ((run env e s base ov n st i url log).res, (run env e s base ov n st i url log).url) =
        eval env e base ov st (s.drop i) url := by
  induction n with
  | zero =>
    intro st i url log h
    rw [rank_zero (Nat.le_zero.1 h), eval_eof]
    simp [run]
  | succ n ih =>
    intro st i url log h
    by_cases he : st = .eof
    · rw [he, eval_eof]; simp [run]
    · rw [eval_step env e base ov he]
      have hb := sstep_below env e base ov st (s.drop i) url
      rw [← step_on] at hb ⊢
      unfold run
      rw [if_neg he]
      dsimp only
      rcases hs : step env e s base ov st i url with ⟨res, u, l⟩
      rw [hs] at hb
      cases res with
      | error err => rfl
      | ok p =>
        obtain ⟨st', i'⟩ := p
        have hb : st'.rank < st.rank := hb
        exact ih st' i' u (l ++ log) (by omega)

/-- the input after the removals at the start of `BasicURLParser.parse` -/
def prepared (urlstring : Str) (url0 : Option Rec) : Str :=
  removeTabNewline (match url0 with | some _ => urlstring | none => stripBoth isC0OrSpace urlstring)

/-- the validation errors recorded before the loop -/
def initLog (urlstring : Str) (url0 : Option Rec) : Log :=
  let pre : Log := match url0 with
    | some _ => []
    | none => if stripBoth isC0OrSpace urlstring = urlstring then [] else [.ev .invalidURLUnit]
  if (match url0 with | some _ => urlstring | none => stripBoth isC0OrSpace urlstring).any isTabNewline
    then .ev .invalidURLUnit :: pre else pre

theorem basicParse_run (env : Env) (urlstring : Str) (base : Option Rec) (e : Encoding) (url0 : Option Rec)
    (ov : Option PState) :
    basicParse env urlstring base e url0 ov = run env e (prepared urlstring url0) base ov maxSteps
      (ov.getD .schemeStart) 0 (url0.getD {}) (initLog urlstring url0) := by
  cases url0 <;> rfl

theorem basicParse_eval (env : Env) (urlstring : Str) (base : Option Rec) (e : Encoding) (url0 : Option Rec)
    (ov : Option PState) :
    ((basicParse env urlstring base e url0 ov).res, (basicParse env urlstring base e url0 ov).url) =
      eval env e base ov (ov.getD .schemeStart) (prepared urlstring url0) (url0.getD {}) := by
  unfold basicParse
  dsimp only
  rw [run_eval _ _ _ _ _ _ _ _ _ _ (Nat.le_trans (rank_le _) (by decide)), List.drop_zero]
  cases url0 <;> rfl

/-- what `BasicURLParser.parse` without `url` returns -/
def Fin.toExcept : Except Err Unit × Rec → Except Err Rec
  | (.ok _, u) => .ok u
  | (.error e, _) => .error e

theorem basicParse_toExcept (env : Env) (urlstring : Str) (base : Option Rec) (e : Encoding) :
    (basicParse env urlstring base e).toExcept =
      Fin.toExcept (eval env e base none .schemeStart (prepared urlstring none) {}) := by
  have := basicParse_eval env urlstring base e none none
  simp only [Option.getD_none] at this
  rw [← this]
  unfold ParseOut.toExcept Fin.toExcept
  cases (basicParse env urlstring base e).res <;> rfl

end Urlstd
