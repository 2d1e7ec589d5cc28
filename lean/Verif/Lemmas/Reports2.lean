/-
The validation errors that the standard's state machine reports are those that the parser records: authorities, hosts,
ports, relative references.
-/
import Verif.Lemmas.Reports1

set_option linter.unusedSimpArgs false
set_option linter.unusedVariables false

namespace Urlstd

open Spec (IsStr IsScalarStr encodeCP encodeAfter encoder Letter Cfg Ctx Next Outcome runState codePoint Reports stateErrors)

section
variable {env : Env} {e : Encoding} {s : Str} {base : Option Rec} {R : Str → Bool → List VErr}

/-- the machine and the reports of its host parser that belong to the code's parser -/
abbrev Rep (env : Env) (e : Encoding) (base : Option Rec) (s : Str) (k : Cfg) (l : List VErr) : Prop :=
  Reports (machine env e base none) (reportOf env) s k l

theorem isSpecial_of {u v : Rec} (hv : v.scheme = u.scheme) : Spec.isSpecial v.scheme = u.isSpecial := by
  rw [hv, isSpecial_rec]

theorem endsAuthority_of {u v : Rec} (hv : v.scheme = u.scheme) (c : Nat) :
    Spec.endsAuthority v (some c) = isAuthorityEnd u.isSpecial c := by
  rw [endsAuthority_some]
  unfold Rec.isSpecial
  rw [hv]

/-! ### port -/

theorem t_portDone (hdig : env.maxStrDigits = 0 ∨ s.length ≤ env.maxStrDigits) {r buf : Str} {i : Nat} (hd : s.drop i = r)
    (hi : i ≤ s.length) (hb : ∀ c ∈ buf, isDigit c = true) (hl : buf.length ≤ i) (a b p : Bool) {u v : Rec}
    (hv : v.scheme = u.scheme) {l : List VErr} (h : EmitsOut env e s base (portEnd env false i buf u) l)
    (hr : runState (machine env e base none) r.head? r.tail ⟨.port, i, buf, a, b, p, v⟩ =
      Spec.runState.portDone ⟨.port, i, buf, a, b, p, v⟩ false)
    (he : stateErrors (machine env e base none) R r.head? r.tail ⟨.port, i, buf, a, b, p, v⟩ = Spec.stateErrors.outOfRange buf) :
    Reports (machine env e base none) R s ⟨.port, i, buf, a, b, p, v⟩ l := by
  rw [run_portDone] at hr
  unfold portEnd at h
  dsimp only at h
  unfold Spec.stateErrors.outOfRange at he
  by_cases h1 : buf = []
  · subst h1
    rw [if_pos rfl, if_neg (by simp)] at hr
    rw [if_pos (by rfl), if_neg (by simp)] at h
    rw [if_neg (by decide)] at he
    obtain ⟨l', g1, g2⟩ := h.to
    rw [g2]
    exact t_stay (er := []) hd hi hr he (t_pathStart hd hi _ _ _ _ hv g1)
  · rw [if_neg h1] at hr
    rw [if_neg (by simpa using h1), port_value env hb h1 (by
      rcases hdig with h | h
      · exact .inl h
      · exact .inr (by omega))] at h
    dsimp only at h
    have hv' : (Int.ofNat (Spec.decimal buf)).toNat = Spec.decimal buf := rfl
    rw [hv'] at h
    by_cases h2 : Spec.decimal buf > 65535
    · rw [if_pos h2] at hr he h
      obtain ⟨_, g2⟩ := h.fail
      rw [g2]
      exact t_fail hd hr he
    · rw [if_neg h2] at hr he h
      rw [if_neg (by simp)] at hr h
      obtain ⟨l', g1, g2⟩ := h.to
      rw [g2]
      exact t_stay (er := []) hd hi hr he (t_pathStart hd hi _ _ _ _ (by exact hv) g1)

theorem t_port_loop (hdig : env.maxStrDigits = 0 ∨ s.length ≤ env.maxStrDigits) (rest : Str) : ∀ (i : Nat) (hd : s.drop i = rest)
    (hi : i ≤ s.length) (buf : Str) (hb : ∀ c ∈ buf, isDigit c = true) (hl : buf.length ≤ i) (a b p : Bool) (u v : Rec)
    (hv : v.scheme = u.scheme) (l : List VErr) (h : EmitsOut env e s base (portLoop env false rest i buf u) l),
    Reports (machine env e base none) R s ⟨.port, i, buf, a, b, p, v⟩ l := by
  induction rest with
  | nil =>
    intro i hd hi buf hb hl a b p u v hv l h
    exact t_portDone hdig hd hi hb hl a b p hv h rfl rfl
  | cons c cs ih =>
    intro i hd hi buf hb hl a b p u v hv l h
    have hr := run_port (K := machine env e base none) (some c) cs buf i a b p v
    dsimp only at hr
    rw [endsAuthority_of hv, ov_isSome] at hr
    have he : stateErrors (machine env e base none) R (some c) cs ⟨.port, i, buf, a, b, p, v⟩ =
        if Spec.Digit c then [] else if (Spec.endsAuthority v (some c) || (machine env e base none).override.isSome) = true then
          Spec.stateErrors.outOfRange buf else [.portInvalid] := rfl
    rw [endsAuthority_of hv, ov_isSome] at he
    have hdg : Spec.Digit c ↔ isDigit c = true := by rw [← digit_eq, decide_eq_true_eq]
    unfold portLoop at h
    by_cases hc : isDigit c = true
    · rw [if_pos (hdg.2 hc)] at hr he
      rw [if_pos hc] at h
      exact t_adv (er := []) hd hr he (ih (i + 1) (drop_next hd) (drop_lt hd) (buf ++ [c]) (by
        intro x hx
        rcases List.mem_append.1 hx with hx | hx
        · exact hb x hx
        · rw [List.mem_singleton] at hx; rw [hx]; exact hc) (by simp; omega) a b p u v hv l h)
    · rw [if_neg (fun h => hc (hdg.1 h))] at hr he
      rw [if_neg hc] at h
      by_cases h2 : (isAuthorityEnd u.isSpecial c || (none : Option PState).isSome) = true
      · rw [if_pos h2] at hr he
        rw [if_pos (by exact h2)] at h
        exact t_portDone hdig hd hi hb hl a b p hv h hr he
      · rw [if_neg h2] at hr he
        rw [if_neg (by exact h2)] at h
        obtain ⟨_, g2⟩ := h.fail
        rw [g2]
        exact t_fail hd hr he

theorem t_port (hdig : env.maxStrDigits = 0 ∨ s.length ≤ env.maxStrDigits) {rest : Str} {i : Nat} (hd : s.drop i = rest)
    (hi : i ≤ s.length) (a b p : Bool) {u v : Rec} (hv : v.scheme = u.scheme) {l : List VErr}
    (h : Emits env e s base .port i u l) : Reports (machine env e base none) R s ⟨.port, i, [], a, b, p, v⟩ l := by
  have h := h.step (by decide)
  change EmitsOut env e s base (portLoop env false (s.drop i) i [] u) l at h
  rw [hd] at h
  exact t_port_loop hdig rest i hd hi [] (by simp) (by simp) a b p u v hv l h

/-! ### host -/

theorem err_host (c : Option Nat) (r buf : Str) (i : Int) (a b p : Bool) (v : Rec) :
    stateErrors (machine env e base none) R c r ⟨.host, i, buf, a, b, p, v⟩ =
      if (c == some c!":" && !b) = true then
        (if buf = [] then [.hostMissing] else R buf (!Spec.isSpecial v.scheme))
      else if Spec.endsAuthority v c = true then
        (if (Spec.isSpecial v.scheme && buf == []) = true then [.hostMissing] else R buf (!Spec.isSpecial v.scheme))
      else [] := rfl

theorem run_host_none (c : Option Nat) (r buf : Str) (i : Int) (a b p : Bool) (u : Rec) :
    runState (machine env e base none) c r ⟨.host, i, buf, a, b, p, u⟩ =
      if (c == some c!":" && !b) = true then
        (if buf = [] then .failure u
        else
          match hostOf env buf (!Spec.isSpecial u.scheme) with
          | none => .failure u
          | some h => .go ⟨.port, i, [], a, b, p, { u with host := some h }⟩)
      else if Spec.endsAuthority u c = true then
        (if (Spec.isSpecial u.scheme && buf == []) = true then .failure u
        else
          match hostOf env buf (!Spec.isSpecial u.scheme) with
          | none => .failure u
          | some h => .go ⟨.pathStart, i - 1, [], a, b, p, { u with host := some h }⟩)
      else .go ⟨.host, i, buf ++ c.toList, a, if c = some c!"[" then true else if c = some c!"]" then false else b, p, u⟩ := rfl

theorem t_hostEnd {r buf : Str} {i : Nat} (hd : s.drop i = r) (hi : i ≤ s.length) (a b p : Bool) {u v : Rec}
    (hv : v.scheme = u.scheme) (hr : ∀ c, r.head? = some c → isAuthorityEnd u.isSpecial c = true) {l : List VErr}
    (h : EmitsOut env e s base (hostEnd env false i buf u) l) : Rep env e base s ⟨.host, i, buf, a, b, p, v⟩ l := by
  have hrun := run_host_none (env := env) (e := e) (base := base) r.head? r.tail buf i a b p v
  have he := err_host (env := env) (e := e) (base := base) (R := reportOf env) r.head? r.tail buf i a b p v
  have hncol : (r.head? == some 58 && !b) = false := by
    cases r with
    | nil => rfl
    | cons c cs =>
      have := hr c rfl
      have hc : c ≠ 58 := by rintro rfl; unfold isAuthorityEnd at this; simp at this
      simp [hc]
  have hend : Spec.endsAuthority v r.head? = true := by
    cases r with
    | nil => exact endsAuthority_none v
    | cons c cs => rw [List.head?_cons, endsAuthority_of hv]; exact hr c rfl
  rw [hncol, if_neg (by simp), if_pos hend, isSpecial_of hv] at hrun he
  unfold hostEnd at h
  have hemp : (buf == []) = buf.isEmpty := by cases buf <;> rfl
  rw [hemp] at hrun he
  by_cases h1 : (u.isSpecial && buf.isEmpty) = true
  · rw [if_pos h1] at hrun he h
    obtain ⟨_, g2⟩ := h.fail
    rw [g2]
    exact t_fail hd hrun he
  · rw [if_neg h1] at hrun he h
    rw [if_neg (by simp)] at h
    unfold hostOf at hrun
    unfold reportOf at he
    rcases hh : hostParse env buf (!u.isSpecial) with ⟨res, log⟩
    rw [hh] at hrun he h
    cases res with
    | error err =>
      dsimp only at hrun he h
      obtain ⟨_, g2⟩ := h.fail
      rw [g2]
      exact t_fail hd hrun he
    | ok hst =>
      dsimp only at hrun he h
      rw [if_neg (by simp)] at h
      obtain ⟨l', g1, g2⟩ := h.to
      rw [g2]
      exact t_stay hd hi hrun he (t_pathStart hd hi _ _ _ _ (by exact hv) g1)

theorem t_host_loop (hdig : env.maxStrDigits = 0 ∨ s.length ≤ env.maxStrDigits) (rest : Str) : ∀ (i : Nat) (hd : s.drop i = rest)
    (hi : i ≤ s.length) (buf : Str) (a b p : Bool) (u v : Rec) (hv : v.scheme = u.scheme) (l : List VErr)
    (h : EmitsOut env e s base (hostLoop env none rest i buf b u) l), Rep env e base s ⟨.host, i, buf, a, b, p, v⟩ l := by
  induction rest with
  | nil =>
    intro i hd hi buf a b p u v hv l h
    exact t_hostEnd hd hi a b p hv (by intro c hc; cases hc) h
  | cons c cs ih =>
    intro i hd hi buf a b p u v hv l h
    have hrun := run_host_none (env := env) (e := e) (base := base) (some c) cs buf i a b p v
    have he := err_host (env := env) (e := e) (base := base) (R := reportOf env) (some c) cs buf i a b p v
    rw [endsAuthority_of hv, isSpecial_of hv] at hrun he
    unfold hostLoop at h
    by_cases h1 : (decide (c = c!":") && !b) = true
    · have h1' : (some c == some c!":" && !b) = true := by simpa using h1
      rw [if_pos h1'] at hrun he
      rw [if_pos h1] at h
      by_cases h2 : buf = []
      · rw [if_pos h2] at hrun he
        rw [if_pos (by rw [h2]; rfl)] at h
        obtain ⟨_, g2⟩ := h.fail
        rw [g2]
        exact t_fail hd hrun he
      · rw [if_neg h2] at hrun he
        rw [if_neg (by simpa using h2), if_neg (by simp)] at h
        unfold hostOf at hrun
        unfold reportOf at he
        rcases hh : hostParse env buf (!u.isSpecial) with ⟨res, log⟩
        rw [hh] at hrun he h
        cases res with
        | error err =>
          dsimp only at hrun he h
          obtain ⟨_, g2⟩ := h.fail
          rw [g2]
          exact t_fail hd hrun he
        | ok hst =>
          dsimp only at hrun he h
          obtain ⟨l', g1, g2⟩ := h.to
          rw [g2]
          exact t_adv hd hrun he (t_port hdig (drop_next hd) (drop_lt hd) _ _ _ (by exact hv) g1)
    · have h1' : ¬ (some c == some c!":" && !b) = true := by simpa using h1
      rw [if_neg h1] at h
      by_cases h2 : isAuthorityEnd u.isSpecial c = true
      · rw [if_pos h2] at h
        exact t_hostEnd hd hi a b p hv (by intro x hx; cases hx; exact h2) h
      · rw [if_neg h1', if_neg h2] at hrun he
        rw [if_neg h2] at h
        refine t_adv (er := []) hd hrun he (ih (i + 1) (drop_next hd) (drop_lt hd) _ _ _ _ _ _ hv l ?_)
        have e1 : (if some c = some c!"[" then true else if some c = some c!"]" then false else b) =
            (if c = c!"[" then true else if c = c!"]" then false else b) := by
          simp
        rw [e1]
        exact h

theorem t_host (hdig : env.maxStrDigits = 0 ∨ s.length ≤ env.maxStrDigits) {rest : Str} {i : Nat} (hd : s.drop i = rest)
    (hi : i ≤ s.length) (a p : Bool) {u v : Rec} (hv : v.scheme = u.scheme) {l : List VErr}
    (h : Emits env e s base .host i u l) : Rep env e base s ⟨.host, i, [], a, false, p, v⟩ l := by
  have h := h.step (by decide)
  change EmitsOut env e s base (hostLoop env none (s.drop i) i [] false u) l at h
  rw [hd] at h
  exact t_host_loop hdig rest i hd hi [] a false p u v hv l h

/-! ### authority -/

theorem credentials_scheme (buf : Str) (p : Bool) (u : Rec) : (Spec.credentials buf p u).2.scheme = u.scheme := by
  induction buf generalizing p u with
  | nil => rfl
  | cons c cs ih =>
    unfold Spec.credentials
    split
    · exact ih _ _
    · split
      · rw [ih]
      · rw [ih]

theorem err_authority (c : Option Nat) (r buf : Str) (i : Int) (a b p : Bool) (v : Rec) :
    stateErrors (machine env e base none) R c r ⟨.authority, i, buf, a, b, p, v⟩ =
      if c = some c!"@" then [.invalidCredentials]
      else if (Spec.endsAuthority v c && a && buf == []) = true then [.invalidCredentials]
      else [] := rfl

theorem t_authority_end (hdig : env.maxStrDigits = 0 ∨ s.length ≤ env.maxStrDigits) {r buf : Str} {i : Nat} (hd : s.drop i = r)
    (hi : i ≤ s.length) (hl : buf.length ≤ i) (a p : Bool) {u v : Rec} (hv : v.scheme = u.scheme) (log : Log) {l : List VErr}
    (h : EmitsOut env e s base (authorityEnd (i + 1) buf a u log) l)
    (hr : ∀ c, r.head? = some c → isAuthorityEnd u.isSpecial c = true) :
    ∃ l', l = types log ++ l' ∧ Rep env e base s ⟨.authority, i, buf, a, false, p, v⟩ l' := by
  have hrun := run_authority (K := machine env e base none) r.head? r.tail buf i a false p v
  have he := err_authority (env := env) (e := e) (base := base) (R := reportOf env) r.head? r.tail buf i a false p v
  have hnat : ¬ r.head? = some c!"@" := by
    intro hx
    have := hr _ hx
    unfold isAuthorityEnd at this
    simp at this
  have hend : Spec.endsAuthority v r.head? = true := by
    cases r with
    | nil => exact endsAuthority_none v
    | cons c cs => rw [List.head?_cons, endsAuthority_of hv]; exact hr c rfl
  have hemp : (buf == []) = buf.isEmpty := by cases buf <;> rfl
  rw [if_neg hnat, hend, hemp] at hrun he
  rw [if_pos rfl] at hrun
  rw [Bool.true_and] at he
  unfold authorityEnd at h
  by_cases h1 : (a && buf.isEmpty) = true
  · rw [if_pos h1] at hrun he h
    obtain ⟨_, g2⟩ := h.fail
    exact ⟨_, by rw [g2, types_cons]; rfl, t_fail hd hrun he⟩
  · rw [if_neg h1] at hrun he h
    obtain ⟨l', g1, g2⟩ := h.to
    refine ⟨l', g2, ?_⟩
    have hidx : i + 1 - (buf.length + 1) = i - buf.length := by omega
    rw [hidx] at g1
    have h1 : codePoint s ((i : Nat) : Int) = r.head? := by rw [codePoint_drop, hd]
    have h2 : Spec.remaining s ((i : Nat) : Int) = r.tail := by rw [remaining_drop, hd]
    have h3 : ((i : Int) - (buf.length + 1) + 1) = ((i - buf.length : Nat) : Int) := by omega
    have := Reports.next (K := machine env e base none) (input := s) (k := ⟨.authority, i, buf, a, false, p, v⟩)
      (k' := ⟨.host, i - (buf.length + 1), [], a, false, p, v⟩) (report := reportOf env) (l := l')
      (by dsimp only; rw [h1, h2]; exact hrun) (by show (i : Int) - (buf.length + 1) ≠ s.length; omega)
      (by dsimp only; rw [h3]; exact t_host hdig rfl (by omega) a p hv g1)
    dsimp only at this
    rw [h1, h2, he] at this
    exact this

theorem t_authority_loop (hdig : env.maxStrDigits = 0 ∨ s.length ≤ env.maxStrDigits) (rest : Str) :
    ∀ (i : Nat) (hd : s.drop i = rest) (hi : i ≤ s.length) (buf : Str) (hl : buf.length ≤ i) (a p p' : Bool) (u v : Rec)
    (hv : v.scheme = u.scheme) (log : Log) (l : List VErr)
    (h : EmitsOut env e s base (authorityLoop u.isSpecial rest i buf a p' u log) l),
    ∃ l', l = types log ++ l' ∧ Rep env e base s ⟨.authority, i, buf, a, false, p, v⟩ l' := by
  induction rest with
  | nil =>
    intro i hd hi buf hl a p p' u v hv log l h
    exact t_authority_end hdig hd hi hl a p hv log h (by intro c hc; cases hc)
  | cons c cs ih =>
    intro i hd hi buf hl a p p' u v hv log l h
    have hrun := run_authority (K := machine env e base none) (some c) cs buf i a false p v
    have he := err_authority (env := env) (e := e) (base := base) (R := reportOf env) (some c) cs buf i a false p v
    unfold authorityLoop at h
    by_cases h1 : c = c!"@"
    · rw [if_pos (by rw [h1])] at hrun he
      rw [if_pos h1] at h
      dsimp only at h
      obtain ⟨l', g1, g2⟩ := ih (i + 1) (drop_next hd) (drop_lt hd) [] (by simp) true _ _ (authorityAt buf a p' u).1 _
        ((credentials_scheme _ _ _).trans hv) _ l h
      refine ⟨_, ?_, t_adv hd hrun he g2⟩
      rw [g1, types_cons, List.append_assoc]
      rfl
    · rw [if_neg (by simpa using h1), endsAuthority_of hv] at hrun he
      rw [if_neg h1] at h
      by_cases h2 : isAuthorityEnd u.isSpecial c = true
      · rw [if_pos h2] at h
        exact t_authority_end hdig hd hi hl a p hv log h (by intro x hx; cases hx; exact h2)
      · rw [if_neg h2] at h hrun
        rw [if_neg (by simp [h2])] at he
        obtain ⟨l', g1, g2⟩ := ih (i + 1) (drop_next hd) (drop_lt hd) (buf ++ [c]) (by simp; omega) a p p' u v hv log l h
        exact ⟨l', g1, t_adv (er := []) hd hrun he g2⟩

theorem t_authority (hdig : env.maxStrDigits = 0 ∨ s.length ≤ env.maxStrDigits) {rest : Str} {i : Nat} (hd : s.drop i = rest)
    (hi : i ≤ s.length) (p : Bool) {u v : Rec} (hv : v.scheme = u.scheme) {l : List VErr}
    (h : Emits env e s base .authority i u l) : Rep env e base s ⟨.authority, i, [], false, false, p, v⟩ l := by
  have h := h.step (by decide)
  change EmitsOut env e s base (authorityLoop u.isSpecial (s.drop i) i [] false false u []) l at h
  rw [hd] at h
  obtain ⟨l', g1, g2⟩ := t_authority_loop hdig rest i hd hi [] (by simp) false p false u v hv [] l h
  rw [g1]
  exact g2

/-! ### slashes before an authority -/

theorem t_ignoreSlashes_loop (hdig : env.maxStrDigits = 0 ∨ s.length ≤ env.maxStrDigits) (rest : Str) :
    ∀ (i : Nat) (hd : s.drop i = rest) (hi : i ≤ s.length) (p : Bool) (u v : Rec) (hv : v.scheme = u.scheme) (log : Log) (l : List VErr)
    (h : Emits env e s base .authority (ignoreSlashes rest i log).1 u l),
    ∃ l', types (ignoreSlashes rest i log).2 ++ l = types log ++ l' ∧
      Rep env e base s ⟨.specialAuthorityIgnoreSlashes, i, [], false, false, p, v⟩ l' := by
  induction rest with
  | nil =>
    intro i hd hi p u v hv log l h
    exact ⟨l, rfl, t_stay (er := []) hd hi (by rw [run_ignoreSlashes, if_neg (by simp)]) rfl (t_authority hdig hd hi p hv h)⟩
  | cons c cs ih =>
    intro i hd hi p u v hv log l h
    have hrun := run_ignoreSlashes (K := machine env e base none) (some c) cs [] i false false p v
    have he : stateErrors (machine env e base none) (reportOf env) (some c) cs
        ⟨.specialAuthorityIgnoreSlashes, i, [], false, false, p, v⟩ =
        if some c = some c!"/" ∨ some c = some c!"\\" then [.specialSchemeMissingFollowingSolidus] else [] := rfl
    unfold ignoreSlashes at h ⊢
    by_cases h1 : c = c!"/" ∨ c = c!"\\"
    · rw [if_pos (by simpa using h1)] at h hrun he ⊢
      obtain ⟨l', g1, g2⟩ := ih (i + 1) (drop_next hd) (drop_lt hd) p u v hv _ l h
      refine ⟨_, ?_, t_adv hd hrun he g2⟩
      rw [g1, types_cons, List.append_assoc]
      rfl
    · rw [if_neg (by simpa using h1)] at h hrun he ⊢
      exact ⟨l, rfl, t_stay (er := []) hd hi hrun he (t_authority hdig hd hi p hv h)⟩

theorem t_ignoreSlashes (hdig : env.maxStrDigits = 0 ∨ s.length ≤ env.maxStrDigits) {rest : Str} {i : Nat} (hd : s.drop i = rest)
    (hi : i ≤ s.length) (p : Bool) {u v : Rec} (hv : v.scheme = u.scheme) {l : List VErr}
    (h : Emits env e s base .specialAuthorityIgnoreSlashes i u l) :
    Rep env e base s ⟨.specialAuthorityIgnoreSlashes, i, [], false, false, p, v⟩ l := by
  have h := h.step (by decide)
  change EmitsOut env e s base (.to .authority (ignoreSlashes (s.drop i) i []).1 u (ignoreSlashes (s.drop i) i []).2) l at h
  rw [hd] at h
  obtain ⟨l', g1, g2⟩ := h.to
  obtain ⟨l2, g3, g4⟩ := t_ignoreSlashes_loop hdig rest i hd hi p u v hv [] l' g1
  rw [g2, g3]
  exact g4

theorem t_authoritySlashes (hdig : env.maxStrDigits = 0 ∨ s.length ≤ env.maxStrDigits) {rest : Str} {i : Nat} (hd : s.drop i = rest)
    (hi : i ≤ s.length) (p : Bool) {u v : Rec} (hv : v.scheme = u.scheme) {l : List VErr}
    (h : Emits env e s base .specialAuthoritySlashes i u l) :
    Rep env e base s ⟨.specialAuthoritySlashes, i, [], false, false, p, v⟩ l := by
  have h := h.step (by decide)
  change EmitsOut env e s base (parseSpecialAuthoritySlashes s i u) l at h
  unfold parseSpecialAuthoritySlashes at h
  rw [hd] at h
  have hrun := run_authoritySlashes (K := machine env e base none) rest.head? rest.tail [] i false false p v
  have he : stateErrors (machine env e base none) (reportOf env) rest.head? rest.tail
      ⟨.specialAuthoritySlashes, i, [], false, false, p, v⟩ =
      if rest.head? = some c!"/" ∧ rest.tail.head? = some c!"/" then [] else [.specialSchemeMissingFollowingSolidus] := rfl
  by_cases h1 : rest.take 2 = u!"//"
  · rw [if_pos ((twoSlashes rest).2 h1)] at hrun he
    rw [if_pos h1] at h
    obtain ⟨l', g1, g2⟩ := h.to
    rw [g2]
    have hr := twoSlashes_shape h1
    rw [hr] at hd hrun he
    exact t_skip (er := []) hd hrun he (t_ignoreSlashes hdig (drop_next (drop_next hd)) (drop_lt (drop_next hd)) p hv g1)
  · rw [if_neg (fun x => h1 ((twoSlashes rest).1 x))] at hrun he
    rw [if_neg h1] at h
    obtain ⟨l', g1, g2⟩ := h.to
    rw [g2]
    exact t_stay hd hi hrun he (t_ignoreSlashes hdig hd hi p hv g1)

/-! ### relative references -/

theorem t_relativeSlash (hdig : env.maxStrDigits = 0 ∨ s.length ≤ env.maxStrDigits) {rest : Str} {i : Nat} (hd : s.drop i = rest)
    (hi : i ≤ s.length) (p : Bool) {u v : Rec} (hv : v.scheme = u.scheme) {l : List VErr}
    (h : Emits env e s base .relativeSlash i u l) :
    Rep env e base s ⟨.relativeSlash, i, [], false, false, p, v⟩ l := by
  have h := h.step (by decide)
  change EmitsOut env e s base (parseRelativeSlash s i base u) l at h
  unfold parseRelativeSlash at h
  dsimp only at h
  rw [hd] at h
  have hb : (machine env e base none).base = base := rfl
  have hrun := run_relativeSlash (K := machine env e base none) rest.head? rest.tail [] i false false p v
  have he : stateErrors (machine env e base none) (reportOf env) rest.head? rest.tail
      ⟨.relativeSlash, i, [], false, false, p, v⟩ =
      if (Spec.isSpecial v.scheme && rest.head? == some c!"\\") = true then [.invalidReverseSolidus] else [] := rfl
  rw [hb, isSpecial_of hv] at hrun
  rw [isSpecial_of hv] at he
  by_cases h1 : u.isSpecial = true ∧ rest.head? = some c!"\\"
  · rw [if_pos (by simp [h1.1, h1.2])] at h hrun
    rw [if_pos (by simp [h1.1, h1.2])] at he
    obtain ⟨l', g1, g2⟩ := h.to
    rw [g2]
    cases rest with
    | nil => cases h1.2
    | cons c cs => exact t_adv hd hrun he (t_ignoreSlashes hdig (drop_next hd) (drop_lt hd) p hv g1)
  · rw [if_neg (by simpa using h1)] at h he
    by_cases h2 : u.isSpecial = true ∧ rest.head? = some c!"/"
    · rw [if_pos (by simp [h2.1, h2.2])] at h hrun
      obtain ⟨l', g1, g2⟩ := h.to
      rw [g2]
      cases rest with
      | nil => cases h2.2
      | cons c cs => exact t_adv (er := []) hd hrun he (t_ignoreSlashes hdig (drop_next hd) (drop_lt hd) p hv g1)
    · rw [if_neg (by simpa using h2)] at h
      rw [if_neg (by
        simp only [Bool.and_eq_true, Bool.or_eq_true, beq_iff_eq]
        rintro ⟨hx, hy | hy⟩
        · exact h2 ⟨hx, hy⟩
        · exact h1 ⟨hx, hy⟩)] at hrun
      by_cases h3 : rest.head? = some c!"/"
      · rw [if_pos h3] at h hrun
        obtain ⟨l', g1, g2⟩ := h.to
        rw [g2]
        cases rest with
        | nil => cases h3
        | cons c cs => exact t_adv (er := []) hd hrun he (t_authority hdig (drop_next hd) (drop_lt hd) p hv g1)
      · rw [if_neg h3] at h hrun
        cases hbase : base with
        | none =>
          rw [hbase] at h
          obtain ⟨g1, _⟩ := h.fail
          cases g1
        | some bs =>
          rw [hbase] at h hrun he
          obtain ⟨l', g1, g2⟩ := h.to
          rw [g2]
          exact t_stay (er := []) hd hi hrun he (t_path hd hi _ _ _ _ (by exact hv) g1)

theorem shortenRec_scheme {u w : Rec} (h : shortenRec u = some w) : w.scheme = u.scheme := by
  unfold shortenRec at h
  split at h
  · cases h
  · cases h; rfl

theorem t_relative (hdig : env.maxStrDigits = 0 ∨ s.length ≤ env.maxStrDigits) {rest : Str} {i : Nat} (hd : s.drop i = rest)
    (hi : i ≤ s.length) (p : Bool) {u v : Rec} {l : List VErr}
    (h : Emits env e s base .relative i u l) :
    Rep env e base s ⟨.relative, i, [], false, false, p, v⟩ l := by
  have h := h.step (by decide)
  change EmitsOut env e s base (parseRelative s i base u) l at h
  unfold parseRelative at h
  dsimp only at h
  rw [hd] at h
  have hrun := run_relative (K := machine env e base none) rest.head? rest.tail [] i false false p v
  cases hbase : base with
  | none =>
    rw [hbase] at h
    obtain ⟨g1, _⟩ := h.fail
    cases g1
  | some bs =>
    have he : ∀ c r, stateErrors (machine env e (some bs) none) (reportOf env) c r
        ⟨.relative, i, [], false, false, p, v⟩ =
        if (bs.isSpecial && c == some c!"\\") = true then [.invalidReverseSolidus] else [] := fun c r => by
      rw [← isSpecial_rec]; rfl
    rw [hbase] at h hrun
    dsimp only [machine] at h hrun
    change runState (machine env e (some bs) none) _ _ _ = _ at hrun
    split at h
    · obtain ⟨g1, _⟩ := h.fail; cases g1
    · rw [isSpecial_rec] at hrun
      cases rest with
      | nil =>
        dsimp only [List.head?_nil] at h hrun
        have he := he none []
        rw [if_neg (by simp)] at he
        obtain ⟨l', g1, g2⟩ := h.to
        rw [g2, g1.done]
        exact t_end hd hi hrun he
      | cons c cs =>
        dsimp only [List.head?_cons, List.tail_cons] at h hrun
        have he := he (some c) cs
        by_cases h1 : c = c!"/"
        · subst h1
          rw [if_pos rfl] at h hrun
          rw [if_neg (by simp)] at he
          obtain ⟨l', g1, g2⟩ := h.to
          rw [g2]
          exact t_adv (er := []) hd hrun he (t_relativeSlash hdig (drop_next hd) (drop_lt hd) p (by rfl) g1)
        · rw [if_neg h1] at h hrun
          by_cases h2 : bs.isSpecial = true ∧ c = c!"\\"
          · rw [if_pos (by simpa using h2)] at hrun he
            rw [if_pos (by simpa [Rec.isSpecial] using h2)] at h
            obtain ⟨l', g1, g2⟩ := h.to
            rw [g2]
            exact t_adv hd hrun he (t_relativeSlash hdig (drop_next hd) (drop_lt hd) p (by rfl) g1)
          · rw [if_neg (by simpa using h2)] at hrun he
            rw [if_neg (by simpa [Rec.isSpecial] using h2)] at h
            by_cases h3 : c = c!"?"
            · subst h3
              rw [if_pos rfl] at h hrun
              obtain ⟨l', g1, g2⟩ := h.to
              rw [g2]
              exact t_adv (er := []) hd hrun he (t_query (drop_next hd) (drop_lt hd) _ _ _ _ g1)
            · rw [if_neg h3] at h hrun
              by_cases h4 : c = c!"#"
              · subst h4
                rw [if_pos rfl] at h hrun
                obtain ⟨l', g1, g2⟩ := h.to
                rw [g2]
                exact t_adv (er := []) hd hrun he (t_fragment (drop_next hd) (drop_lt hd) _ _ _ _ g1)
              · rw [if_neg h4] at h hrun
                split at h
                · rename_i w hw
                  obtain ⟨l', g1, g2⟩ := h.to
                  rw [g2]
                  refine t_stay (er := []) hd hi hrun he (t_path hd hi _ _ _ _ ?_ g1)
                  rw [shortenRec_scheme hw, shorten_scheme]
                  rfl
                · obtain ⟨g1, _⟩ := h.fail; cases g1

theorem t_relativeOrAuthority (hdig : env.maxStrDigits = 0 ∨ s.length ≤ env.maxStrDigits) {rest : Str} {i : Nat} (hd : s.drop i = rest)
    (hi : i ≤ s.length) (p : Bool) {u v : Rec} (hv : v.scheme = u.scheme) {l : List VErr}
    (h : Emits env e s base .specialRelativeOrAuthority i u l) :
    Rep env e base s ⟨.specialRelativeOrAuthority, i, [], false, false, p, v⟩ l := by
  have h := h.step (by decide)
  change EmitsOut env e s base (parseSpecialRelativeOrAuthority s i u) l at h
  unfold parseSpecialRelativeOrAuthority at h
  rw [hd] at h
  have hrun := run_relativeOrAuthority (K := machine env e base none) rest.head? rest.tail [] i false false p v
  have he : stateErrors (machine env e base none) (reportOf env) rest.head? rest.tail
      ⟨.specialRelativeOrAuthority, i, [], false, false, p, v⟩ =
      if rest.head? = some c!"/" ∧ rest.tail.head? = some c!"/" then [] else [.specialSchemeMissingFollowingSolidus] := rfl
  by_cases h1 : rest.take 2 = u!"//"
  · rw [if_pos ((twoSlashes rest).2 h1)] at hrun he
    rw [if_pos h1] at h
    obtain ⟨l', g1, g2⟩ := h.to
    rw [g2]
    have hr := twoSlashes_shape h1
    rw [hr] at hd hrun he
    exact t_skip (er := []) hd hrun he (t_ignoreSlashes hdig (drop_next (drop_next hd)) (drop_lt (drop_next hd)) p hv g1)
  · rw [if_neg (fun x => h1 ((twoSlashes rest).1 x))] at hrun he
    rw [if_neg h1] at h
    obtain ⟨l', g1, g2⟩ := h.to
    rw [g2]
    exact t_stay hd hi hrun he (t_relative hdig hd hi p g1)

theorem t_pathOrAuthority (hdig : env.maxStrDigits = 0 ∨ s.length ≤ env.maxStrDigits) {rest : Str} {i : Nat} (hd : s.drop i = rest)
    (hi : i ≤ s.length) (p : Bool) {u v : Rec} (hv : v.scheme = u.scheme) {l : List VErr}
    (h : Emits env e s base .pathOrAuthority i u l) :
    Rep env e base s ⟨.pathOrAuthority, i, [], false, false, p, v⟩ l := by
  have h := h.step (by decide)
  change EmitsOut env e s base (parsePathOrAuthority s i u) l at h
  unfold parsePathOrAuthority at h
  rw [hd] at h
  have hrun := run_pathOrAuthority (K := machine env e base none) rest.head? rest.tail [] i false false p v
  by_cases h1 : rest.head? = some c!"/"
  · rw [if_pos h1] at h hrun
    obtain ⟨l', g1, g2⟩ := h.to
    rw [g2]
    cases rest with
    | nil => cases h1
    | cons c cs => exact t_adv (er := []) hd hrun rfl (t_authority hdig (drop_next hd) (drop_lt hd) p hv g1)
  · rw [if_neg h1] at h hrun
    obtain ⟨l', g1, g2⟩ := h.to
    rw [g2]
    exact t_stay (er := []) hd hi hrun rfl (t_path hd hi _ _ _ _ hv g1)

end

end Urlstd
