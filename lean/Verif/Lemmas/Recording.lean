/-
Parsing with and without a `validity` object: the same, except that recording an error about a number
that is too long raises ValueError.
-/
import Verif.Lemmas.History
import Verif.Lemmas.Log

set_option linter.unusedSimpArgs false
set_option linter.unusedVariables false

namespace Urlstd

/-- the first is the second, or the bare ValueError -/
def ValueOr {α : Type} (a b : Except Err α) : Prop := a = b ∨ a = .error .valueError

theorem intTransform_recording (env : Env) (s : Str) : intTransform env.recording s = intTransform env.quiet s := by
  have h : ∀ s, intTransform.go env.recording s = intTransform.go env.quiet s := by
    intro s
    induction s with
    | nil => rfl
    | cons c cs ih => unfold intTransform.go; rw [ih]; rfl
  unfold intTransform
  rw [h]

theorem pyInt_recording (env : Env) (b : Nat) (s : Str) : pyInt env.recording b s = pyInt env.quiet b s := by
  unfold pyInt
  rw [intTransform_recording]
  rfl

theorem parseIPv4Number_recording (env : Env) (s : Str) :
    parseIPv4Number env.recording s = parseIPv4Number env.quiet s := by
  unfold parseIPv4Number
  simp only [pyInt_recording]

theorem ipv4Numbers_recording (env : Env) (parts : List Str) : ∀ ns log,
    ipv4Numbers env.recording parts ns log = ipv4Numbers env.quiet parts ns log := by
  induction parts with
  | nil => intro ns log; rfl
  | cons p ps ih =>
    intro ns log
    unfold ipv4Numbers
    dsimp only
    simp only [ih, parseIPv4Number_recording]

theorem ipv4PartValues_recording (env : Env) (l : List Str) :
    ipv4PartValues env.recording l = ipv4PartValues env.quiet l := by
  induction l with
  | nil => rfl
  | cons x xs ih => unfold ipv4PartValues; rw [ih, pyInt_recording]

theorem v6Piece_recording (env : Env) (st : V6) (b : Bool) : v6Piece env.recording st b = v6Piece env.quiet st b := by
  unfold v6Piece v6IPv4
  dsimp only
  simp only [ipv4PartValues_recording, pyInt_recording]

theorem v6Loop_recording (env : Env) (s : Str) : ∀ st, v6Loop env.recording s st = v6Loop env.quiet s st := by
  induction s with
  | nil => intro st; unfold v6Loop; rw [v6Piece_recording]
  | cons c cs ih => intro st; unfold v6Loop; rw [v6Piece_recording]; simp only [ih]

theorem ipv6Parse_recording (env : Env) (s : Str) : ipv6Parse env.recording s = ipv6Parse env.quiet s := by
  unfold ipv6Parse v6Run
  simp only [v6Loop_recording]

theorem ipv4Parse_recording (env : Env) (s : Str) :
    ValueOr (ipv4Parse env.recording s).res (ipv4Parse env.quiet s).res := by
  unfold ipv4Parse
  dsimp only
  generalize (if (_ && _) = true then _ else _ : List Str) = parts
  split
  · exact .inl rfl
  · have hn : ∀ log, ipv4Numbers env.recording parts [] log = ipv4Numbers env.quiet parts [] log := fun _ => ipv4Numbers_recording ..
    rw [hn]
    split
    · exact .inl rfl
    · have hq : (env.quiet).validity = false := rfl
      have hr : (env.recording).validity = true := rfl
      have ht : ∀ n, strTooLong env.recording n = strTooLong env.quiet n := fun _ => rfl
      simp only [hq, hr, Bool.and_true, Bool.and_false, Bool.false_and]
      rename_i numbers log _
      have ht' : numbers.any (strTooLong env.recording) = numbers.any (strTooLong env.quiet) := rfl
      rw [ht']
      by_cases hl : numbers.any (strTooLong env.quiet) = true
      · rw [hl]
        by_cases h1 : (numbers.any fun x => decide (x > 255)) = true
        · exact .inr (by simp [h1, Res.err])
        · simp only [Bool.not_eq_true] at h1
          rw [h1]
          simp only [Bool.false_and, Bool.false_eq_true, if_false, if_true]
          split
          · exact .inl rfl
          · split
            · exact .inl rfl
            · exact .inl rfl
      · simp only [Bool.not_eq_true] at hl
        rw [hl]
        simp only [Bool.and_false, Bool.false_eq_true, if_false]
        exact .inl rfl

theorem hostParse_recording (env : Env) (h : Str) (m : Bool) :
    ValueOr (hostParse env.recording h m).res (hostParse env.quiet h m).res := by
  have h6 : ∀ s, ipv6Parse env.recording s = ipv6Parse env.quiet s := fun _ => ipv6Parse_recording ..
  have hd : ∀ s b, domainToAscii env.recording s b = domainToAscii env.quiet s b := fun _ _ => rfl
  have he : ∀ s, isEndsInANumber env.recording s = isEndsInANumber env.quiet s := fun _ => by
    unfold isEndsInANumber; simp only [parseIPv4Number_recording]
  unfold hostParse
  split
  · exact .inl rfl
  · split
    · split
      · exact .inl rfl
      · rw [h6]; exact .inl rfl
    · split
      · exact .inl rfl
      · rw [hd]
        split
        · exact .inl rfl
        · rename_i ascii log _
          split
          · exact .inl rfl
          · rw [he]
            split
            · have h4 := ipv4Parse_recording env ascii
              revert h4
              rcases ipv4Parse env.recording ascii with ⟨r, l⟩
              rcases ipv4Parse env.quiet ascii with ⟨r', l'⟩
              rintro (h4 | h4)
              · dsimp only at h4
                subst h4
                cases r <;> exact .inl rfl
              · dsimp only at h4
                subst h4
                exact .inr rfl
            · exact .inl rfl

/-- the same step, or the bare ValueError -/
def SOut.Sim (a b : SOut) : Prop := a = b ∨ ∃ u, a = .fail .valueError u

theorem sim_rfl (a : SOut) : a.Sim a := .inl rfl

theorem sim_ite {c : Prop} [Decidable c] {a b a' b' : SOut} (ha : a.Sim a') (hb : b.Sim b') :
    (if c then a else b).Sim (if c then a' else b') := by split <;> assumption

theorem sHostEnd_sim (env : Env) (ov : Bool) (b r : Str) (u : Rec) :
    (sHostEnd env.recording ov b r u).Sim (sHostEnd env.quiet ov b r u) :=
  sim_ite (sim_rfl _) (sim_ite (sim_rfl _) (by
    rcases hostParse_recording env b (!u.isSpecial) with h | h <;> rw [h]
    · exact .inl rfl
    · exact .inr ⟨u, rfl⟩))

theorem sHost_sim (env : Env) (ov : Option PState) (r : Str) (u : Rec) :
    (sHost env.recording ov r u).Sim (sHost env.quiet ov r u) := by
  unfold sHost
  refine sim_ite (sim_rfl _) ?_
  unfold sHostGo
  dsimp only
  split
  · exact sHostEnd_sim ..
  · exact sim_ite (sim_ite (sim_rfl _) (sim_ite (sim_rfl _) (by
    rcases hostParse_recording env (hostSpan u.isSpecial false r).1 (!u.isSpecial) with h | h <;> rw [h]
    · exact .inl rfl
    · exact .inr ⟨u, rfl⟩)))
      (sHostEnd_sim ..)

theorem sFileHost_sim (env : Env) (ov : Option PState) (r : Str) (u : Rec) :
    (sFileHost env.recording ov r u).Sim (sFileHost env.quiet ov r u) :=
  sim_ite (sim_rfl _) (sim_ite (sim_rfl _) (by
    rcases hostParse_recording env (r.takeWhile notFileHostEnd) (!u.isSpecial) with h | h <;> rw [h]
    · exact .inl rfl
    · exact .inr ⟨u, rfl⟩))

theorem sstep_sim (env : Env) (e : Encoding) (base : Option Rec) (ov : Option PState) (st : PState) (r : Str) (u : Rec) :
    (sstep env.recording e base ov st r u).Sim (sstep env.quiet e base ov st r u) := by
  cases st
  case host => exact sHost_sim ..
  case hostname => exact sHost_sim ..
  case fileHost => exact sFileHost_sim ..
  case port => left; simp only [sstep, sPort, sPortGo, sPortEnd, pyInt_recording]
  all_goals exact .inl rfl

theorem srun_sim (env : Env) (e : Encoding) (base : Option Rec) (ov : Option PState) (n : Nat) :
    ∀ (st : PState) (r : Str) (u : Rec), srun env.recording e base ov n st r u = srun env.quiet e base ov n st r u ∨
      (srun env.recording e base ov n st r u).1 = .error .valueError := by
  induction n with
  | zero =>
    intro st r u
    unfold srun
    exact .inl rfl
  | succ n ih =>
    intro st r u
    unfold srun
    by_cases h : st = .eof
    · rw [if_pos h, if_pos h]; exact .inl rfl
    · rw [if_neg h, if_neg h]
      dsimp only
      rcases sstep_sim env e base ov st r u with h | ⟨u', h⟩
      · rw [h]
        cases sstep env.quiet e base ov st r u with
        | fail err u => exact .inl rfl
        | to st' r' u' => exact ih _ _ _
      · rw [h]; exact .inr rfl

theorem basicParse_recording (env : Env) (s : Str) (base : Option Rec) (e : Encoding) :
    ValueOr (basicParse env.recording s base e).toExcept (basicParse env.quiet s base e).toExcept := by
  rw [basicParse_toExcept, basicParse_toExcept]
  rcases srun_sim env e base none PState.schemeStart.rank .schemeStart (prepared s none) {} with h | h
  · exact .inl (congrArg Fin.toExcept h)
  · right
    change Fin.toExcept (srun env.recording e base none PState.schemeStart.rank .schemeStart (prepared s none) {}) = _
    revert h
    generalize srun env.recording e base none PState.schemeStart.rank .schemeStart (prepared s none) {} = p
    rintro h
    obtain ⟨a, b⟩ := p
    dsimp only at h
    subst h
    rfl

theorem parseUrl_recording (env : Env) (s : Str) (base : BaseArg) (e : Encoding) :
    ValueOr (parseUrl env.recording s base e).res (parseUrl env.quiet s base e).res := by
  cases base with
  | none => exact basicParse_recording ..
  | record b => exact basicParse_recording ..
  | str b =>
    rw [parseUrl_str, parseUrl_str]
    rcases basicParse_recording env b none e with h | h
    · rw [h]
      cases (basicParse env.quiet b none e).toExcept with
      | error err => exact .inl rfl
      | ok r => exact basicParse_recording ..
    · rw [h]; exact .inr rfl

/-- a base URL: absent, a string, or a `URL` object a program can hold -/
def UrlBaseOK (env : Env) : UrlBase → Prop
  | .none => True
  | .str b => Spec.IsStr b
  | .url o => Reached env o

/-- the exceptions of parsing with a `URL` object as base -/
theorem parseUrl_urlError {env : Env} {s : Str} {base : UrlBase} {err : Err} (hs : Spec.IsStr s)
    (hb : UrlBaseOK env base) (h : (parseUrl env.recording s base.arg).res = .error err) :
    ParseErr env.recording (max s.length base.arg.length) err := by
  cases base with
  | none => exact parseUrl_error (base := .none) (e := .utf8) hs trivial trivial h
  | str b => exact parseUrl_error (base := .str b) (e := .utf8) hs hb trivial h
  | url o =>
    have hb : Reached env o := hb
    have hw := hb.objOK (hostSpec_true env.quiet)
    refine (basicParse_error (k := false) (e := .utf8) (hostSpec_true env.recording) trivial ?_ hs h).mono (by omega)
    intro b hb'
    cases hb'
    exact hw.url

end Urlstd
