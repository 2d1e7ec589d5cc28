/-
Runs of the parser without a validation error, in both directions: the states of authorities, hosts and ports.
-/
import Verif.Lemmas.ErrorFree1
import Verif.Lemmas.HostErr

set_option linter.unusedSimpArgs false
set_option linter.unusedVariables false

namespace Urlstd

open Spec (URLUnits QueryPart FragmentPart PathText PathBehind PortString OpenBracket HostSpan AuthorityText)

/-- the host parser accepts the text and records nothing -/
def HostSilent (env : Env) (special : Bool) (h : Str) : Prop := ∃ x, hostParse env h (!special) = ⟨.ok x, []⟩

/-- CPython converts a numeral with so many digits -/
def DigitsOK (env : Env) (n : Nat) : Prop := env.maxStrDigits = 0 ∨ n ≤ env.maxStrDigits

section
variable {env : Env} {e : Encoding} {s : Str} {base : Option Rec}

theorem on_ok {o : Out} {st : PState} {t : Str} {u : Rec} (h : o.on s = .to st t u) : ∃ x, o.res = .ok x := by
  rcases o with ⟨r, u', log⟩
  cases r with
  | error err => cases h
  | ok x => exact ⟨x, rfl⟩

theorem quiet_log {st : PState} (hst : st ≠ .eof) {i : Nat} {url : Rec} (h : Quiet env e s base st i url) :
    (step env e s base none st i url).log = [] := by
  cases h with
  | eof => exact absurd rfl hst
  | next h1 h2 => rw [h1]; rfl

/-! ### Port -/

/-- digits, and what is behind them -/
def PortRest (env : Env) (t : Str) : Prop := ∃ d r, t = d ++ r ∧ PortString d ∧ DigitsOK env d.length ∧ PathBehind r

theorem end_stop {sp : Bool} {c : Nat} {t : Str} (hc : isAuthorityEnd sp c = true) (h : PathText (c :: t)) : PathBehind (c :: t) := by
  refine ⟨h, fun x hx => ?_⟩
  cases hx
  unfold isAuthorityEnd at hc
  simp only [Bool.or_eq_true, Bool.and_eq_true, beq_iff_eq] at hc
  rcases hc with ((h | h) | h) | ⟨-, rfl⟩
  · exact .inl h
  · exact .inr (.inl h)
  · exact .inr (.inr h)
  · exact absurd h pathText_backslash

theorem pathBehind_nil : PathBehind [] := ⟨(pathText_tail (by simp)).2 tailText_nil, by simp⟩

theorem portLoop_log (t : Str) : ∀ (i : Nat) (buf : Str) (url : Rec) (x : PState × Nat),
    (portLoop env false t i buf url).res = .ok x → (portLoop env false t i buf url).log = [] := by
  have hend : ∀ (i : Nat) (buf : Str) (url : Rec) (x : PState × Nat),
      (portEnd env false i buf url).res = .ok x → (portEnd env false i buf url).log = [] := by
    intro i buf url x
    unfold portEnd
    dsimp only
    split
    · intro _; rfl
    · split
      · intro h; cases h
      · split
        · intro h; cases h
        · intro _; rfl
  induction t with
  | nil => intro i buf url x; exact hend i buf url x
  | cons c t ih =>
    intro i buf url x
    unfold portLoop
    split
    · exact ih _ _ _ _
    · split
      · exact hend _ _ _ _
      · intro h; cases h

theorem portRest_iff (t : Str) : PortRest env t ↔
    PortString (t.takeWhile isDigit) ∧ DigitsOK env (t.takeWhile isDigit).length ∧ PathBehind (t.dropWhile isDigit) := by
  constructor
  · rintro ⟨d, r, h, h1, h2, h3⟩
    have h0 : t.takeWhile isDigit ++ t.dropWhile isDigit = d ++ r := by rw [← h]; exact List.takeWhile_append_dropWhile
    obtain ⟨h4, h5⟩ := span_unique (stop := fun c => isDigit c = false) h0 (fun c hc => by rw [mem_takeWhile c hc]; simp)
      (fun c hc => by rw [isDigit_iff.2 (h1.1 c hc)]; simp) (fun c hc => head_dropWhile hc)
      (fun c hc => by rcases h3.2 c hc with rfl | rfl | rfl <;> decide)
    rw [h4, h5]
    exact ⟨h1, h2, h3⟩
  · rintro ⟨h1, h2, h3⟩
    exact ⟨_, _, List.takeWhile_append_dropWhile.symm, h1, h2, h3⟩

theorem quiet_port {i : Nat} {url : Rec} {t : Str} (hd : s.drop i = t) {segs : List Str} (hu : url.path = .list segs) :
    Quiet env e s base .port i url ↔ PortRest env t := by
  rw [portRest_iff]
  have hdig : ∀ c ∈ t.takeWhile isDigit, isDigit c = true := mem_takeWhile
  have hstep : sstep env e base none .port t url = sPortGo env false (t.takeWhile isDigit) (t.dropWhile isDigit) url := rfl
  have hlog : ∀ st' t' u', sstep env e base none .port t url = .to st' t' u' → (step env e s base none .port i url).log = [] := by
    intro st' t' u' h
    rw [← hd, ← step_on] at h
    obtain ⟨x, hx⟩ := on_ok h
    exact portLoop_log _ _ _ _ x hx
  have hstr : PortString (t.takeWhile isDigit) ↔ Spec.decimal (t.takeWhile isDigit) ≤ 65535 :=
    ⟨fun h => h.2, fun h => ⟨fun c hc => isDigit_iff.1 (hdig c hc), h⟩⟩
  generalize t.takeWhile isDigit = d at hdig hstep hstr ⊢
  have hr : ∀ c, (t.dropWhile isDigit).head? = some c → isDigit c = false := fun c hc => head_dropWhile hc
  generalize t.dropWhile isDigit = r at hr hstep ⊢
  -- the end of the port
  have hend : ∀ (hsep : sstep env e base none .port t url = sPortEnd env false d r url) (hp : PathText r → PathBehind r),
      (Quiet env e s base .port i url ↔ PortString d ∧ DigitsOK env d.length ∧ PathBehind r) := by
    intro hsep hp
    have hp' : PathText r ↔ PathBehind r := ⟨hp, fun h => h.1⟩
    unfold sPortEnd at hsep
    dsimp only at hsep
    by_cases hne : d = []
    · subst hne
      rw [if_pos (by rfl)] at hsep
      rw [quiet_via hd hsep (fun j hj => quiet_pathStart hj hu), hlog _ _ _ hsep, hp']
      have h1 : PortString [] := ⟨by simp, by decide⟩
      have h2 : DigitsOK env ([] : Str).length := .inr (Nat.zero_le _)
      simp [h1]
      exact fun _ => .inr (Nat.zero_le _)
    · rw [if_neg (by simpa using hne)] at hsep
      by_cases hl : DigitsOK env d.length
      · rw [port_value env hdig hne hl] at hsep
        dsimp only at hsep
        rw [Int.ofNat_eq_natCast, Int.toNat_natCast] at hsep
        by_cases hb : Spec.decimal d > 65535
        · rw [if_pos hb] at hsep
          refine ⟨fun h => absurd h (quiet_fail (by decide) hd hsep), fun h => ?_⟩
          have := h.1.2
          omega
        · rw [if_neg hb] at hsep
          rw [quiet_via hd hsep (fun j hj => quiet_pathStart hj hu), hlog _ _ _ hsep, hp', hstr]
          have : Spec.decimal d ≤ 65535 := by omega
          simp [this, hl]
      · have hnum : IsNumeral 10 d := fun c hc => digitValue_lt10.2 (hdig c hc)
        have hnone : pyInt env 10 d = none := by
          unfold DigitsOK at hl
          exact pyInt_long env hnum hne ⟨by omega, by omega⟩
        rw [hnone] at hsep
        exact ⟨fun h => absurd h (quiet_fail (by decide) hd hsep), fun h => absurd h.2.1 hl⟩
  cases r with
  | nil => exact hend hstep (fun _ => pathBehind_nil)
  | cons c r =>
    unfold sPortGo at hstep
    dsimp only at hstep
    by_cases hc : isAuthorityEnd url.isSpecial c = true
    · rw [if_pos (by rw [hc]; rfl)] at hstep
      exact hend hstep (fun h => end_stop hc h)
    · rw [if_neg (by simpa using hc)] at hstep
      refine ⟨fun h => absurd h (quiet_fail (by decide) hd hstep), fun h => ?_⟩
      exfalso
      apply hc
      rcases h.2.2.2 c rfl with rfl | rfl | rfl <;> simp [isAuthorityEnd]

/-! ### Host -/

/-- whether the parser is inside brackets after `a` -/
def flagAfter : Bool → Str → Bool
  | b, [] => b
  | b, c :: cs => flagAfter (if c = c!"[" then true else if c = c!"]" then false else b) cs

theorem open_cons {c : Nat} {cs : Str} : OpenBracket (c :: cs) ↔ (c = c!"[" ∧ c!"]" ∉ cs) ∨ OpenBracket cs := by
  constructor
  · rintro ⟨x, y, h, hy⟩
    cases x with
    | nil =>
      cases h
      exact .inl ⟨rfl, hy⟩
    | cons a x =>
      cases h
      exact .inr ⟨x, y, rfl, hy⟩
  · rintro (⟨rfl, h⟩ | ⟨x, y, rfl, hy⟩)
    · exact ⟨[], cs, rfl, h⟩
    · exact ⟨c :: x, y, rfl, hy⟩

theorem open_nil : ¬ OpenBracket [] := by
  rintro ⟨x, y, h, -⟩
  cases x <;> cases h

theorem flag_iff (a : Str) : ∀ b, flagAfter b a = true ↔ (b = true ∧ c!"]" ∉ a) ∨ OpenBracket a := by
  induction a with
  | nil => intro b; simp [flagAfter, open_nil]
  | cons c a ih =>
    intro b
    unfold flagAfter
    rw [ih, open_cons]
    by_cases h1 : c = c!"["
    · subst h1
      simp
      intro _ h
      exact .inl h
    · rw [if_neg h1]
      by_cases h2 : c = c!"]"
      · subst h2
        simp
      · rw [if_neg h2]
        simp [h1, Ne.symm h2]

theorem flag_open (a : Str) : flagAfter false a = true ↔ OpenBracket a := by
  rw [flag_iff]
  simp

theorem hostSpan_cut (sp : Bool) (r : Str) (h : Str) : ∀ (b : Bool), (∀ c ∈ h, isAuthorityEnd sp c = false) →
    (∀ x y, h = x ++ c!":" :: y → flagAfter b x = true) →
    (∀ c, r.head? = some c → isAuthorityEnd sp c = true ∨ (c = c!":" ∧ flagAfter b h = false)) →
    hostSpan sp b (h ++ r) = (h, r) := by
  induction h with
  | nil =>
    intro b _ _ hr
    cases r with
    | nil => rfl
    | cons c r =>
      rw [List.nil_append]
      unfold hostSpan
      rw [if_pos]
      rcases hr c rfl with h | ⟨rfl, h⟩
      · simp [h]
      · have : b = false := h
        simp [this]
  | cons c h ih =>
    intro b h1 h2 h3
    rw [List.cons_append]
    unfold hostSpan
    have hc := h1 c (by simp)
    rw [if_neg]
    · dsimp only
      rw [ih _ (fun x hx => h1 x (by simp [hx])) (fun x y hxy => h2 (c :: x) y (by rw [hxy]; rfl)) h3]
    · simp only [hc, Bool.or_false, Bool.and_eq_true, decide_eq_true_eq, Bool.not_eq_true']
      rintro ⟨rfl, hb⟩
      have : b = true := h2 [] h rfl
      rw [this] at hb
      cases hb

theorem hostSpan_shape (sp : Bool) (t : Str) : ∀ (b : Bool), t = (hostSpan sp b t).1 ++ (hostSpan sp b t).2 ∧
    (∀ c ∈ (hostSpan sp b t).1, isAuthorityEnd sp c = false) ∧
    (∀ x y, (hostSpan sp b t).1 = x ++ c!":" :: y → flagAfter b x = true) ∧
    (∀ c, (hostSpan sp b t).2.head? = some c → isAuthorityEnd sp c = true ∨ (c = c!":" ∧ flagAfter b (hostSpan sp b t).1 = false)) := by
  induction t with
  | nil =>
    intro b
    refine ⟨rfl, by simp [hostSpan], ?_, by simp [hostSpan]⟩
    intro x y h
    cases x <;> cases h
  | cons c t ih =>
    intro b
    unfold hostSpan
    by_cases hc : ((c = c!":" && !b) || isAuthorityEnd sp c) = true
    · rw [if_pos hc]
      refine ⟨rfl, by simp, ?_, ?_⟩
      · intro x y h
        cases x <;> cases h
      · intro x hx
        cases hx
        simp only [Bool.or_eq_true, Bool.and_eq_true, decide_eq_true_eq, Bool.not_eq_true'] at hc
        rcases hc with ⟨rfl, hb⟩ | h
        · exact .inr ⟨rfl, hb⟩
        · exact .inl h
    · rw [if_neg hc]
      obtain ⟨h1, h2, h3, h4⟩ := ih (if c = c!"[" then true else if c = c!"]" then false else b)
      dsimp only
      simp only [Bool.or_eq_true, Bool.and_eq_true, decide_eq_true_eq, Bool.not_eq_true', not_or, not_and, Bool.not_eq_false, Bool.not_eq_true] at hc
      refine ⟨?_, ?_, ?_, h4⟩
      · rw [List.cons_append, ← h1]
      · intro x hx
        rcases List.mem_cons.1 hx with rfl | hx
        · exact hc.2
        · exact h2 x hx
      · intro x y h
        cases x with
        | nil =>
          cases h
          exact hc.1 rfl
        | cons a x =>
          simp only [List.cons_append, List.cons.injEq] at h
          obtain ⟨rfl, h⟩ := h
          exact h3 x y h

theorem hostLoop_log (sp : Bool) (t : Str) : ∀ (i : Nat) (buf : Str) (b : Bool) (url : Rec) (x : PState × Nat), url.isSpecial = sp →
    (hostLoop env none t i buf b url).res = .ok x →
    (hostLoop env none t i buf b url).log = (hostParse env (buf ++ (hostSpan sp b t).1) (!sp)).log := by
  have hend : ∀ (i : Nat) (buf : Str) (url : Rec) (x : PState × Nat), url.isSpecial = sp →
      (hostEnd env false i buf url).res = .ok x → (hostEnd env false i buf url).log = (hostParse env buf (!sp)).log := by
    intro i buf url x hsp
    unfold hostEnd
    split
    · intro h; cases h
    · rw [if_neg (by simp), hsp]
      rcases hostParse env buf (!sp) with ⟨r, log⟩
      cases r with
      | error err => intro h; cases h
      | ok h => intro _; rfl
  induction t with
  | nil =>
    intro i buf b url x hsp h
    show (hostEnd env false i buf url).log = _
    rw [hend i buf url x hsp h]
    simp [hostSpan]
  | cons c t ih =>
    intro i buf b url x hsp
    unfold hostLoop hostSpan
    by_cases hc : (decide (c = c!":") && !b) = true
    · rw [if_pos hc, if_pos (c := (decide (c = c!":") && !b || isAuthorityEnd sp c) = true) (by rw [hc]; rfl), List.append_nil]
      split
      · intro h; cases h
      · rw [if_neg (by simp), hsp]
        rcases hostParse env buf (!sp) with ⟨r, log⟩
        cases r with
        | error err => intro h; cases h
        | ok h => intro _; rfl
    · rw [if_neg hc, hsp]
      by_cases he : isAuthorityEnd sp c = true
      · rw [if_pos he, if_pos (c := (decide (c = c!":") && !b || isAuthorityEnd sp c) = true) (by rw [he, Bool.or_true]), List.append_nil]
        exact hend _ _ _ _ hsp
      · rw [if_neg he, if_neg (c := (decide (c = c!":") && !b || isAuthorityEnd sp c) = true) (by rw [Bool.or_eq_true]; exact not_or.2 ⟨hc, he⟩)]
        intro h
        rw [ih _ _ _ _ x hsp h, List.append_assoc]
        rfl

/-- a host, a port and a path -/
def QuietHostText (env : Env) (sp : Bool) (t : Str) : Prop :=
  ∃ h port r, t = h ++ (port ++ r) ∧ ((∀ c ∈ h, isAuthorityEnd sp c = false) ∧ ∀ a b, h = a ++ c!":" :: b → OpenBracket a) ∧
    HostSilent env sp h ∧ (sp = true → h ≠ []) ∧ PathBehind r ∧
    (port = [] ∨ ∃ d, port = c!":" :: d ∧ PortString d ∧ DigitsOK env d.length ∧ h ≠ [] ∧ ¬ OpenBracket h)

theorem behind_end {r : Str} (h : PathBehind r) (sp : Bool) {c : Nat} (hc : r.head? = some c) : isAuthorityEnd sp c = true := by
  rcases h.2 c hc with rfl | rfl | rfl <;> simp [isAuthorityEnd]

theorem hostText_iff (sp : Bool) (t : Str) : QuietHostText env sp t ↔ HostSilent env sp (hostSpan sp false t).1 ∧
    (sp = true → (hostSpan sp false t).1 ≠ []) ∧
    ((∃ r, (hostSpan sp false t).2 = c!":" :: r ∧ (hostSpan sp false t).1 ≠ [] ∧ PortRest env r) ∨ PathBehind (hostSpan sp false t).2) := by
  constructor
  · rintro ⟨h, port, r, rfl, ⟨h1, h2⟩, h3, h4, h5, h6⟩
    have hsp : hostSpan sp false (h ++ (port ++ r)) = (h, port ++ r) := by
      refine hostSpan_cut sp _ h false h1 (fun x y hxy => (flag_open x).2 (h2 x y hxy)) ?_
      intro c hc
      rcases h6 with rfl | ⟨d, rfl, -, -, -, hb⟩
      · exact .inl (behind_end h5 sp hc)
      · cases hc
        refine .inr ⟨rfl, ?_⟩
        rw [← Bool.not_eq_true, flag_open]
        exact hb
    rw [hsp]
    refine ⟨h3, h4, ?_⟩
    rcases h6 with rfl | ⟨d, rfl, h7, h8, h9, h10⟩
    · exact .inr h5
    · exact .inl ⟨d ++ r, rfl, h9, d, r, rfl, h7, h8, h5⟩
  · obtain ⟨h1, h2, h3, h4⟩ := hostSpan_shape sp t false
    generalize (hostSpan sp false t).1 = h at h1 h2 h3 h4 ⊢
    generalize (hostSpan sp false t).2 = r at h1 h2 h3 h4 ⊢
    rintro ⟨h5, h6, h7⟩
    have hspan : (∀ c ∈ h, isAuthorityEnd sp c = false) ∧ ∀ a b, h = a ++ c!":" :: b → OpenBracket a :=
      ⟨h2, fun a b hab => (flag_open a).1 (h3 a b hab)⟩
    rcases h7 with ⟨r', rfl, h8, d, r, rfl, h9, h10, h11⟩ | h7
    · refine ⟨h, c!":" :: d, r, h1, hspan, h5, h6, h11, .inr ⟨d, rfl, h9, h10, h8, ?_⟩⟩
      rw [← flag_open]
      rcases h4 _ rfl with h | ⟨-, h⟩
      · cases sp <;> exact absurd h (by decide)
      · rw [h]; simp
    · exact ⟨h, [], r, by simpa using h1, hspan, h5, h6, h7, .inl rfl⟩

theorem quiet_host {i : Nat} {url : Rec} {t : Str} (hd : s.drop i = t) {segs : List Str} (hu : url.path = .list segs) :
    Quiet env e s base .host i url ↔ QuietHostText env url.isSpecial t := by
  rw [hostText_iff]
  have hstep : sstep env e base none .host t url = sHostGo env none (hostSpan url.isSpecial false t).1 (hostSpan url.isSpecial false t).2 url := by
    show sHost env none t url = _
    unfold sHost
    rw [if_neg (by simp)]
  have hlog : ∀ st' t' u', sstep env e base none .host t url = .to st' t' u' →
      (step env e s base none .host i url).log = (hostParse env (hostSpan url.isSpecial false t).1 (!url.isSpecial)).log := by
    intro st' t' u' h
    rw [← hd, ← step_on] at h
    obtain ⟨x, hx⟩ := on_ok h
    have h1 : step env e s base none .host i url = hostLoop env none t i [] false url := by
      show parseHost env s i url none = _
      unfold parseHost
      rw [if_neg (by simp), hd]
    rw [h1] at hx ⊢
    rw [hostLoop_log url.isSpecial t i [] false url x rfl hx, List.nil_append]
  obtain ⟨-, -, -, h4⟩ := hostSpan_shape url.isSpecial t false
  have h4 : ∀ c, (hostSpan url.isSpecial false t).2.head? = some c → isAuthorityEnd url.isSpecial c = true ∨ c = c!":" := by
    intro c hc
    rcases h4 c hc with h | h
    · exact .inl h
    · exact .inr h.1
  generalize (hostSpan url.isSpecial false t).1 = h at hstep hlog h4 ⊢
  generalize (hostSpan url.isSpecial false t).2 = r at hstep hlog h4 ⊢
  have hsil : ∀ x l, hostParse env h (!url.isSpecial) = ⟨.ok x, l⟩ → (HostSilent env url.isSpecial h ↔ l = []) := by
    intro x l hx
    unfold HostSilent
    rw [hx]
    constructor
    · rintro ⟨y, hy⟩; cases hy; rfl
    · rintro rfl; exact ⟨x, rfl⟩
  have hsil' : ∀ err l, hostParse env h (!url.isSpecial) = ⟨.error err, l⟩ → ¬ HostSilent env url.isSpecial h := by
    rintro err l hx ⟨y, hy⟩
    rw [hx] at hy
    cases hy
  -- the end of the host
  have hend : ∀ (hsep : sstep env e base none .host t url = sHostEnd env false h r url) (hno : ∀ r', r ≠ c!":" :: r')
      (hp : PathText r ↔ PathBehind r),
      (Quiet env e s base .host i url ↔ HostSilent env url.isSpecial h ∧ (url.isSpecial = true → h ≠ []) ∧
        ((∃ r', r = c!":" :: r' ∧ h ≠ [] ∧ PortRest env r') ∨ PathBehind r)) := by
    intro hsep hno hp
    unfold sHostEnd at hsep
    by_cases hm : url.isSpecial = true ∧ h = []
    · rw [if_pos (by simp [hm])] at hsep
      exact ⟨fun h => absurd h (quiet_fail (by decide) hd hsep), fun hh => absurd hm.2 (hh.2.1 hm.1)⟩
    · rw [if_neg (by simpa using hm), if_neg (by simp)] at hsep
      rcases hx : hostParse env h (!url.isSpecial) with ⟨x, l⟩
      rw [hx] at hsep
      cases x with
      | error err =>
        exact ⟨fun h => absurd h (quiet_fail (by decide) hd hsep), fun hh => absurd hh.1 (hsil' err l hx)⟩
      | ok x =>
        rw [quiet_via hd hsep (fun j hj => quiet_pathStart hj hu), hlog _ _ _ hsep, hx, hsil x l hx, hp]
        refine and_congr_right fun _ => ⟨fun h => ⟨fun h1 h2 => hm ⟨h1, h2⟩, .inr h⟩, fun h => ?_⟩
        rcases h.2 with ⟨r', h, -⟩ | h
        · exact absurd h (hno r')
        · exact h
  cases r with
  | nil =>
    exact hend hstep (by simp) ⟨fun _ => pathBehind_nil, fun h => h.1⟩
  | cons c r =>
    unfold sHostGo at hstep
    dsimp only at hstep
    by_cases hc : c = c!":"
    · subst hc
      rw [if_pos rfl] at hstep
      have hno : ¬ PathBehind (c!":" :: r) := by
        intro hp
        have := hp.2 _ rfl
        revert this; decide
      by_cases hne : h = []
      · subst hne
        rw [if_pos (by rfl)] at hstep
        refine ⟨fun h => absurd h (quiet_fail (by decide) hd hstep), fun hh => ?_⟩
        rcases hh.2.2 with ⟨r', -, h, -⟩ | h
        · exact absurd rfl h
        · exact absurd h hno
      · rw [if_neg (by simpa using hne), if_neg (by simp)] at hstep
        rcases hx : hostParse env h (!url.isSpecial) with ⟨x, l⟩
        rw [hx] at hstep
        cases x with
        | error err =>
          exact ⟨fun h => absurd h (quiet_fail (by decide) hd hstep), fun hh => absurd hh.1 (hsil' err l hx)⟩
        | ok x =>
          rw [quiet_via hd hstep (fun j hj => quiet_port hj hu), hlog _ _ _ hstep, hx, hsil x l hx]
          refine and_congr_right fun _ => ⟨fun h => ⟨fun _ => hne, .inl ⟨r, rfl, hne, h⟩⟩, fun h => ?_⟩
          rcases h.2 with ⟨r', h, -, hp⟩ | h
          · cases h; exact hp
          · exact absurd h hno
    · rw [if_neg hc] at hstep
      have he : isAuthorityEnd url.isSpecial c = true := (h4 c rfl).resolve_right hc
      exact hend hstep (fun r' h => hc (by cases h; rfl)) ⟨fun h => end_stop he h, fun h => h.1⟩

/-! ### Authority -/

theorem authorityLoop_log (sp : Bool) (t : Str) : ∀ (i : Nat) (buf : Str) (at' pw : Bool) (url : Rec) (log : Log),
    (at' = true → log ≠ []) →
    ((authorityLoop sp t i buf at' pw url log).log = [] ↔ log = [] ∧ c!"@" ∉ t.takeWhile (notEnd sp)) := by
  have hend : ∀ (i : Nat) (buf : Str) (at' : Bool) (url : Rec) (log : Log), (at' = true → log ≠ []) →
      ((authorityEnd i buf at' url log).log = [] ↔ log = []) := by
    intro i buf at' url log h
    unfold authorityEnd
    split
    · rename_i hc
      simp only [Bool.and_eq_true] at hc
      have := h hc.1
      simp [Out.fail, this]
    · rfl
  induction t with
  | nil =>
    intro i buf at' pw url log h
    show (authorityEnd (i + 1) buf at' url log).log = [] ↔ _
    rw [hend _ _ _ _ _ h]
    simp
  | cons c t ih =>
    intro i buf at' pw url log h
    unfold authorityLoop
    by_cases hc : c = c!"@"
    · subst hc
      rw [if_pos rfl]
      dsimp only
      rw [ih _ _ _ _ _ _ (by simp), List.takeWhile_cons, if_pos (by cases sp <;> decide)]
      simp
    · rw [if_neg hc]
      by_cases he : isAuthorityEnd sp c = true
      · rw [if_pos he, hend _ _ _ _ _ h, List.takeWhile_cons, if_neg (by simp [notEnd, he])]
        simp
      · rw [if_neg he, ih _ _ _ _ _ _ h, List.takeWhile_cons, if_pos (by simp [notEnd, he])]
        simp [Ne.symm hc]

theorem splitAtLast_absent {c : Nat} {t : Str} (h : c ∉ t) : splitAtLast c t = none := by
  induction t with
  | nil => rfl
  | cons x t ih =>
    simp only [List.mem_cons, not_or] at h
    unfold splitAtLast
    rw [ih h.2]
    dsimp only
    rw [if_neg (Ne.symm h.1)]

theorem authorityText_iff (sp : Bool) (t : Str) :
    AuthorityText (HostSilent env) (DigitsOK env) sp t ↔ QuietHostText env sp t ∧ c!"@" ∉ t.takeWhile (notEnd sp) := by
  have hE : ∀ c, isAuthorityEnd sp c = false ↔ c ∉ u!"/?#" ∧ (sp = true → c ≠ c!"\\") := by
    intro c
    unfold isAuthorityEnd
    cases sp <;> simp <;> grind
  constructor
  · rintro ⟨h, port, r, rfl, ⟨h1, h2⟩, h3, h4, h5, h6⟩
    have hne : ∀ c ∈ h, isAuthorityEnd sp c = false := by
      intro c hc
      rw [hE]
      obtain ⟨h7, h8⟩ := h1 c hc
      refine ⟨?_, h8⟩
      simp only [List.mem_cons, List.not_mem_nil, or_false, not_or] at h7 ⊢
      exact ⟨h7.1, h7.2.1, h7.2.2.1⟩
    refine ⟨⟨h, port, r, rfl, ⟨hne, h2⟩, h3, h4, h5, h6⟩, ?_⟩
    have hpo : ∀ c ∈ port, isAuthorityEnd sp c = false ∧ c ≠ c!"@" := by
      intro c hc
      rcases h6 with rfl | ⟨d, rfl, hd, -⟩
      · cases hc
      · rcases List.mem_cons.1 hc with rfl | hc
        · cases sp <;> decide
        · have := hd.1 c hc
          unfold Spec.Digit at this
          rw [hE]
          simp only [List.mem_cons, List.not_mem_nil, or_false, not_or]
          refine ⟨⟨⟨by omega, by omega, by omega⟩, fun _ => by omega⟩, by omega⟩
    have hr : r.takeWhile (notEnd sp) = [] := by
      cases r with
      | nil => rfl
      | cons c r =>
        rw [List.takeWhile_cons, if_neg]
        simp [notEnd, behind_end h5 sp rfl]
    rw [← List.append_assoc, List.takeWhile_append_of_pos, hr, List.append_nil]
    · intro hm
      rcases List.mem_append.1 hm with hm | hm
      · exact (h1 _ hm).1 (by simp)
      · exact (hpo _ hm).2 rfl
    · intro c hc
      rcases List.mem_append.1 hc with hc | hc
      · simp [notEnd, hne c hc]
      · simp [notEnd, (hpo c hc).1]
  · rintro ⟨⟨h, port, r, rfl, ⟨h1, h2⟩, h3, h4, h5, h6⟩, hat⟩
    refine ⟨h, port, r, rfl, ⟨fun c hc => ?_, h2⟩, h3, h4, h5, h6⟩
    have := (hE c).1 (h1 c hc)
    refine ⟨?_, this.2⟩
    have hca : c ≠ c!"@" := by
      rintro rfl
      apply hat
      rw [List.takeWhile_append_of_pos (fun x hx => by simp [notEnd, h1 x hx])]
      exact List.mem_append_left _ hc
    simp only [List.mem_cons, List.not_mem_nil, or_false, not_or] at this ⊢
    exact ⟨this.1.1, this.1.2.1, this.1.2.2, hca⟩

theorem quiet_authority {i : Nat} {url : Rec} {t : Str} (hd : s.drop i = t) {segs : List Str} (hu : url.path = .list segs) :
    Quiet env e s base .authority i url ↔ AuthorityText (HostSilent env) (DigitsOK env) url.isSpecial t := by
  rw [authorityText_iff]
  have hlog : (step env e s base none .authority i url).log = [] ↔ c!"@" ∉ t.takeWhile (notEnd url.isSpecial) := by
    show (authorityLoop url.isSpecial (s.drop i) i [] false false url []).log = [] ↔ _
    rw [hd, authorityLoop_log _ _ _ _ _ _ _ _ (by simp)]
    simp
  by_cases hat : c!"@" ∈ t.takeWhile (notEnd url.isSpecial)
  · refine ⟨fun h => absurd hat (hlog.1 (quiet_log (by decide) h)), fun h => absurd hat h.2⟩
  · have hs : sstep env e base none .authority t url = .to .host t url := by
      show sAuthority t url = _
      unfold sAuthority
      dsimp only
      rw [splitAtLast_absent hat]
    rw [quiet_via hd hs (fun j hj => quiet_host hj hu), hlog]
    exact And.comm

theorem ignoreSlashes_log (t : Str) : ∀ (i : Nat) (log : Log), (ignoreSlashes t i log).2 = [] ↔ log = [] ∧ ∀ c, t.head? = some c → isSlash c = false := by
  induction t with
  | nil => intro i log; simp [ignoreSlashes]
  | cons c t ih =>
    intro i log
    unfold ignoreSlashes
    by_cases hc : (decide (c = c!"/") || decide (c = c!"\\")) = true
    · rw [if_pos hc, ih]
      have : isSlash c = true := hc
      simp [this]
    · rw [if_neg hc]
      have : isSlash c = false := by simpa [isSlash] using hc
      simp [this]

theorem quiet_ignoreSlashes {i : Nat} {url : Rec} {t : Str} (hd : s.drop i = t) {segs : List Str} (hu : url.path = .list segs)
    (hsp : url.isSpecial = true) :
    Quiet env e s base .specialAuthorityIgnoreSlashes i url ↔ AuthorityText (HostSilent env) (DigitsOK env) true t := by
  have hlog : (step env e s base none .specialAuthorityIgnoreSlashes i url).log = [] ↔ ∀ c, t.head? = some c → isSlash c = false := by
    show (ignoreSlashes (s.drop i) i []).2 = [] ↔ _
    rw [hd, ignoreSlashes_log]
    simp
  have hs : sstep env e base none .specialAuthorityIgnoreSlashes t url = .to .authority (t.dropWhile isSlash) url := rfl
  rw [quiet_via hd hs (fun j hj => quiet_authority hj hu), hlog, hsp]
  constructor
  · rintro ⟨h1, h2⟩
    have : t.dropWhile isSlash = t := by
      cases t with
      | nil => rfl
      | cons c t => rw [List.dropWhile_cons, if_neg (by simp [h1 c rfl])]
    rw [this] at h2
    exact h2
  · intro h
    have h1 : ∀ c, t.head? = some c → isSlash c = false := by
      obtain ⟨h, port, r, rfl, ⟨h1, -⟩, -, h4, -⟩ := h
      intro c hc
      cases h with
      | nil => exact absurd rfl (h4 rfl)
      | cons x h =>
        cases hc
        obtain ⟨h7, h8⟩ := h1 c (by simp)
        simp only [List.mem_cons, List.not_mem_nil, or_false, not_or] at h7
        simp [isSlash, h7.1, h8 rfl]
    refine ⟨h1, ?_⟩
    have : t.dropWhile isSlash = t := by
      cases t with
      | nil => rfl
      | cons c t => rw [List.dropWhile_cons, if_neg (by simp [h1 c rfl])]
    rw [this]
    exact h

end

end Urlstd
