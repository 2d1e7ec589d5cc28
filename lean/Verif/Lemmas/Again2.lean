/-
Assigning `host`, `hostname` or `port` after another value of the same attribute: what the second assignment makes of the host
and of the port does not depend on the first.
-/
import Verif.Lemmas.Again

set_option linter.unusedSimpArgs false
set_option linter.unusedVariables false

namespace Urlstd

/-- `f` says for every host and every port with `P` what becomes of them. It leaves both, or sets the host, or both, to values that do
not depend on them. -/
inductive HostEffect (u : Rec) (P : Option Nat → Prop) (f : Rec → Except Err Unit × Rec) : Prop
  | none (r : Except Err Unit) (h : ∀ x p, P p → f { u with host := x, port := p } = (r, { u with host := x, port := p }))
  | host (r : Except Err Unit) (y : Option Host) (h : ∀ x p, P p → f { u with host := x, port := p } = (r, { u with host := y, port := p }))
  | both (r : Except Err Unit) (y : Option Host) (q : Option Nat)
      (h : ∀ x p, P p → f { u with host := x, port := p } = (r, { u with host := y, port := q }))

theorem portTruthy_congr {u w : Rec} (h : u.port = w.port) : u.portTruthy = w.portTruthy := by
  unfold Rec.portTruthy
  rw [h]

theorem hostEndOut_effect (env : Env) (u : Rec) (b : Str) (P : Option Nat → Prop)
    (hP : b ≠ [] ∨ u.isSpecial = true ∨ ∀ p, P p → p = u.port) : HostEffect u P fun w => hostEndOut env w b := by
  unfold hostEndOut
  by_cases h1 : (u.isSpecial && b.isEmpty) = true
  · exact .none (.error .urlParse) fun x p _ => if_pos h1
  · by_cases h2 : (b.isEmpty && u.includesCredentials) = true
    · refine .none (.ok ()) fun x p _ => ?_
      rw [if_neg (show ¬ (({ u with host := x, port := p } : Rec).isSpecial && b.isEmpty) = true from h1)]
      refine if_pos ?_
      rw [Bool.and_eq_true] at h2
      rw [h2.1, show ({ u with host := x, port := p } : Rec).includesCredentials = u.includesCredentials from rfl, h2.2]
      rfl
    · by_cases h3 : (b.isEmpty && u.portTruthy) = true
      · have hp : ∀ p, P p → p = u.port := by
          rw [Bool.and_eq_true] at h3
          rcases hP with h | h | h
          · exact absurd (by simpa using h3.1) h
          · rw [h, h3.1] at h1; exact absurd rfl h1
          · exact h
        refine .none (.ok ()) fun x p h => ?_
        rw [if_neg (show ¬ (({ u with host := x, port := p } : Rec).isSpecial && b.isEmpty) = true from h1)]
        refine if_pos ?_
        rw [Bool.and_eq_true] at h3
        rw [portTruthy_congr (show ({ u with host := x, port := p } : Rec).port = u.port from hp p h), h3.1, h3.2]
        simp
      · have key : ∀ x p, P p → ¬ (b.isEmpty && (({ u with host := x, port := p } : Rec).includesCredentials ||
            ({ u with host := x, port := p } : Rec).portTruthy)) = true := by
          intro x p h
          rcases hP with hb | hs | hp
          · simp [hb]
          · rw [hs] at h1
            simp only [Bool.true_and] at h1
            simp [h1]
          · rw [portTruthy_congr (show ({ u with host := x, port := p } : Rec).port = u.port from hp p h),
              show ({ u with host := x, port := p } : Rec).includesCredentials = u.includesCredentials from rfl]
            cases hb : b.isEmpty with
            | false => simp
            | true => rw [hb] at h2 h3; simp_all
        cases hh : (hostParse env b (!u.isSpecial)).res with
        | error e =>
          refine .none (.error e) fun x p h => ?_
          dsimp only
          rw [if_neg (show ¬ (({ u with host := x, port := p } : Rec).isSpecial && b.isEmpty) = true from h1), if_neg (key x p h),
            show (hostParse env b (!({ u with host := x, port := p } : Rec).isSpecial)).res = .error e from hh]
        | ok y =>
          refine .host (.ok ()) (some y) fun x p h => ?_
          dsimp only
          rw [if_neg (show ¬ (({ u with host := x, port := p } : Rec).isSpecial && b.isEmpty) = true from h1), if_neg (key x p h),
            show (hostParse env b (!({ u with host := x, port := p } : Rec).isSpecial)).res = .ok y from hh]

theorem hostOut_effect (env : Env) (ov : PState) (u : Rec) (b r : Str) (P : Option Nat → Prop)
    (hP : b ≠ [] ∨ u.isSpecial = true ∨ ∀ p, P p → p = u.port) : HostEffect u P fun w => hostOut env ov w b r := by
  unfold hostOut
  cases r with
  | nil => exact hostEndOut_effect env u b P hP
  | cons c cs =>
    dsimp only
    by_cases hc : c = c!":"
    · simp only [if_pos hc]
      by_cases hb : b.isEmpty = true
      · simp only [if_pos hb]
        exact .none (.error .urlParse) fun _ _ _ => rfl
      · simp only [if_neg hb]
        by_cases ho : ov = .hostname
        · simp only [if_pos ho]
          exact .none (.ok ()) fun _ _ _ => rfl
        · simp only [if_neg ho]
          cases hh : (hostParse env b (!u.isSpecial)).res with
          | error e =>
            refine .none (.error e) fun x p _ => ?_
            rw [show (hostParse env b (!({ u with host := x, port := p } : Rec).isSpecial)).res = .error e from hh]
          | ok y =>
            rcases portOut_cases env u (cs.takeWhile isDigit) with hp | ⟨q, hp⟩
            · refine .host (portOut env u (cs.takeWhile isDigit)).1 (some y) fun x p _ => ?_
              rw [show (hostParse env b (!({ u with host := x, port := p } : Rec).isSpecial)).res = .ok y from hh]
              exact hp _ rfl
            · refine .both (.ok ()) (some y) q fun x p _ => ?_
              rw [show (hostParse env b (!({ u with host := x, port := p } : Rec).isSpecial)).res = .ok y from hh]
              exact hp _ rfl
    · simp only [if_neg hc]
      exact hostEndOut_effect env u b P hP

theorem fileHostOut_effect (env : Env) (u : Rec) (b : Str) (P : Option Nat → Prop) :
    HostEffect u P fun w => fileHostOut env w b := by
  unfold fileHostOut
  by_cases hb : b.isEmpty = true
  · simp only [if_pos hb]
    exact .host (.ok ()) (some (.str [])) fun _ _ _ => rfl
  · simp only [if_neg hb]
    cases hh : (hostParse env b (!u.isSpecial)).res with
    | error e =>
      refine .none (.error e) fun x p _ => ?_
      rw [show (hostParse env b (!({ u with host := x, port := p } : Rec).isSpecial)).res = .error e from hh]
    | ok y =>
      refine .host (.ok ()) (some (if y = .str u!"localhost" then .str [] else y)) fun x p _ => ?_
      rw [show (hostParse env b (!({ u with host := x, port := p } : Rec).isSpecial)).res = .ok y from hh]

theorem hostSetOut_effect (env : Env) (ov : PState) (u : Rec) (t : Str) (P : Option Nat → Prop)
    (hP : (hostSpan u.isSpecial false t).1 ≠ [] ∨ u.isSpecial = true ∨ ∀ p, P p → p = u.port) :
    HostEffect u P fun w => hostSetOut env ov w t := by
  unfold hostSetOut
  by_cases hf : u.scheme = u!"file"
  · have := fileHostOut_effect env u (t.takeWhile notFileHostEnd) P
    cases this with
    | none r h => exact .none r fun x p hp => by rw [if_pos (by exact hf)]; exact h x p hp
    | host r y h => exact .host r y fun x p hp => by rw [if_pos (by exact hf)]; exact h x p hp
    | both r y q h => exact .both r y q fun x p hp => by rw [if_pos (by exact hf)]; exact h x p hp
  · have := hostOut_effect env ov u (hostSpan u.isSpecial false t).1 (hostSpan u.isSpecial false t).2 P hP
    cases this with
    | none r h => exact .none r fun x p hp => by rw [if_neg (by exact hf)]; exact h x p hp
    | host r y h => exact .host r y fun x p hp => by rw [if_neg (by exact hf)]; exact h x p hp
    | both r y q h => exact .both r y q fun x p hp => by rw [if_neg (by exact hf)]; exact h x p hp

/-- a text that begins with a character that does not end a host has a host -/
theorem hostSpan_host_ne_nil (sp : Bool) (c : Nat) (cs : Str) (h : isAuthorityEnd sp c = false) (hc : c ≠ c!":") :
    (hostSpan sp false (c :: cs)).1 ≠ [] := by
  rw [hostSpan]
  simp [h, hc]

/-- the record after an assignment, as one with another host and port -/
theorem hostSetOut_form (env : Env) (ov : PState) (u : Rec) (t : Str) :
    (hostSetOut env ov u t).2 = { u with host := (hostSetOut env ov u t).2.host, port := (hostSetOut env ov u t).2.port } ∧
      (ov = .hostname → (hostSetOut env ov u t).2.port = u.port) := by
  have h1 := (hostSetOut_agree env ov u t).1
  have h2 := (hostSetOut_agree env ov u t).2
  generalize (hostSetOut env ov u t).2 = w at h1 h2
  refine ⟨?_, fun h => (h2 h .port (by simp)).symm⟩
  have a1 : u.scheme = w.scheme := h1 .scheme (by simp)
  have a2 : u.username = w.username := h1 .username (by simp)
  have a3 : u.password = w.password := h1 .password (by simp)
  have a4 : u.path = w.path := h1 .path (by simp)
  have a5 : u.query = w.query := h1 .query (by simp)
  have a6 : u.fragment = w.fragment := h1 .fragment (by simp)
  obtain ⟨b1, b2, b3, b4, b5, b6, b7, b8⟩ := w
  simp only [Rec.mk.injEq]
  simp only at a1 a2 a3 a4 a5 a6
  simp [a1, a2, a3, a4, a5, a6]

theorem setHostname_again (env : Env) (o : URLObj) (v w : Str) :
    setHostname env (setHostname env o v).2 w = setHostname env o w ∨
      (setHostname env o w = ((setHostname env o w).1, o) ∧
        setHostname env (setHostname env o v).2 w = ((setHostname env o w).1, (setHostname env o v).2)) := by
  cases ho : o.url.hasOpaquePath with
  | true =>
    have h2 : ∀ v, setHostname env o v = (.ok (), o) := by intro v; unfold setHostname; rw [if_pos ho]
    left
    rw [h2, h2]
  | false =>
    have hp : (hostSetOut env.quiet .hostname o.url (removeTabNewline v)).2.hasOpaquePath = false := by
      unfold Rec.hasOpaquePath at ho ⊢
      rw [(hostSetOut_scheme ..).2]
      exact ho
    have e := setHostname_eq env o w ho
    rw [setHostname_eq env o v ho]
    dsimp only
    rw [setHostname_eq env _ w (by exact hp), e]
    dsimp only
    obtain ⟨f1, f2⟩ := hostSetOut_form env.quiet .hostname o.url (removeTabNewline v)
    have f2 := f2 rfl
    rw [f1]
    generalize (hostSetOut env.quiet .hostname o.url (removeTabNewline v)).2.host = x at *
    generalize (hostSetOut env.quiet .hostname o.url (removeTabNewline v)).2.port = p at *
    have hu : o.url = { o.url with host := o.url.host, port := o.url.port } := rfl
    cases hostSetOut_effect env.quiet .hostname o.url (removeTabNewline w) (· = o.url.port) (.inr (.inr fun _ h => h)) with
    | none r h =>
      right
      have h0 := h o.url.host o.url.port rfl
      rw [h x p f2, h0]
      exact ⟨rfl, rfl⟩
    | host r y h =>
      left
      have h0 := h o.url.host o.url.port rfl
      rw [h x p f2, h0, f2]
    | both r y q h =>
      left
      have h0 := h o.url.host o.url.port rfl
      rw [h x p f2, h0]

/-- a text without a host, for a URL that is not special: refused, or allowed if there is no port -/
theorem hostSetOut_bare (env : Env) (u : Rec) (t : Str) (hs : u.isSpecial = false) (hb : (hostSpan u.isSpecial false t).1 = []) :
    (∃ r, ∀ x p, hostSetOut env .host { u with host := x, port := p } t = (r, { u with host := x, port := p })) ∨
      ∀ x p, hostSetOut env .host { u with host := x, port := p } t =
        (.ok (), { u with host := if p.any (· != 0) then x else some (.str []), port := p }) := by
  have hf : u.scheme ≠ u!"file" := by
    intro e
    unfold Rec.isSpecial at hs
    rw [e] at hs
    exact absurd hs (by decide)
  have e0 : ∀ x p, hostSetOut env .host { u with host := x, port := p } t =
      hostOut env .host { u with host := x, port := p } [] (hostSpan u.isSpecial false t).2 := by
    intro x p
    unfold hostSetOut
    rw [if_neg (show ¬ ({ u with host := x, port := p } : Rec).scheme = _ from hf)]
    rw [show ({ u with host := x, port := p } : Rec).isSpecial = u.isSpecial from rfl, hb]
  simp only [e0]
  have hend : (∃ r, ∀ x p, hostEndOut env { u with host := x, port := p } [] = (r, { u with host := x, port := p })) ∨
      ∀ x p, hostEndOut env { u with host := x, port := p } [] =
        (.ok (), { u with host := if p.any (· != 0) then x else some (.str []), port := p }) := by
    cases hc : u.includesCredentials with
    | true =>
      left
      refine ⟨.ok (), fun x p => ?_⟩
      unfold hostEndOut
      rw [show ({ u with host := x, port := p } : Rec).isSpecial = u.isSpecial from rfl, hs,
        show ({ u with host := x, port := p } : Rec).includesCredentials = u.includesCredentials from rfl, hc]
      rfl
    | false =>
      right
      intro x p
      unfold hostEndOut
      rw [show ({ u with host := x, port := p } : Rec).isSpecial = u.isSpecial from rfl, hs,
        show ({ u with host := x, port := p } : Rec).includesCredentials = u.includesCredentials from rfl, hc]
      have e1 : ({ u with host := x, port := p } : Rec).portTruthy = p.any (· != 0) := by
        unfold Rec.portTruthy
        cases p <;> rfl
      rw [e1]
      cases p.any (· != 0) <;> rfl
  generalize (hostSpan u.isSpecial false t).2 = r
  cases r with
  | nil => exact hend
  | cons c cs =>
    unfold hostOut
    dsimp only
    by_cases hc : c = c!":"
    · simp only [if_pos hc]
      exact .inl ⟨.error .urlParse, fun _ _ => rfl⟩
    · simp only [if_neg hc]
      exact hend

theorem setHost_bare (env : Env) (o : URLObj) (v w : Str) (ho : o.url.hasOpaquePath = false) (hs : o.url.isSpecial = false)
    (hb : (hostSpan o.url.isSpecial false (removeTabNewline w)).1 = []) :
    (setHost env o w = ((setHost env o w).1, o) ∧ setHost env (setHost env o v).2 w = ((setHost env o w).1, (setHost env o v).2)) ∨
      ∀ x, x = o ∨ x = (setHost env o v).2 →
        setHost env x w = (.ok (), if x.url.port.any (· != 0) then x else { x with url := { x.url with host := some (.str []) } }) := by
  have hp : (hostSetOut env.quiet .host o.url (removeTabNewline v)).2.hasOpaquePath = false := by
    unfold Rec.hasOpaquePath at ho ⊢
    rw [(hostSetOut_scheme ..).2]
    exact ho
  have e := setHost_eq env o w ho
  rw [setHost_eq env o v ho]
  have e2 := setHost_eq env { o with url := (hostSetOut env.quiet .host o.url (removeTabNewline v)).2 } w hp
  dsimp only at e2 ⊢
  obtain ⟨f1, f2⟩ := hostSetOut_form env.quiet .host o.url (removeTabNewline v)
  rw [f1] at e2 ⊢
  generalize (hostSetOut env.quiet .host o.url (removeTabNewline v)).2.host = x at *
  generalize (hostSetOut env.quiet .host o.url (removeTabNewline v)).2.port = p at *
  rcases hostSetOut_bare env.quiet o.url (removeTabNewline w) hs hb with ⟨r, h⟩ | h
  · left
    have h0 := h o.url.host o.url.port
    rw [h x p] at e2
    rw [show ({ o.url with host := o.url.host, port := o.url.port } : Rec) = o.url from rfl] at h0
    rw [h0] at e
    rw [e, e2]
    exact ⟨rfl, rfl⟩
  · right
    rintro y (rfl | rfl)
    · have h0 := h y.url.host y.url.port
      rw [show ({ y.url with host := y.url.host, port := y.url.port } : Rec) = y.url from rfl] at h0
      rw [e, h0]
      dsimp only
      cases y.url.port.any (· != 0) <;> rfl
    · rw [e2, h x p]
      dsimp only
      cases p.any (· != 0) <;> rfl

theorem setHost_again (env : Env) (o : URLObj) (v w : Str)
    (hw : o.url.isSpecial = true ∨ (hostSpan o.url.isSpecial false (removeTabNewline w)).1 ≠ []) :
    setHost env (setHost env o v).2 w = setHost env o w ∨
      (setHost env o w = ((setHost env o w).1, o) ∧
        setHost env (setHost env o v).2 w = ((setHost env o w).1, (setHost env o v).2)) ∨
      ((setHost env o w).2.url.port = o.url.port ∧
        setHost env (setHost env o v).2 w = ((setHost env o w).1,
          { (setHost env o w).2 with url := { (setHost env o w).2.url with port := (setHost env o v).2.url.port } })) := by
  cases ho : o.url.hasOpaquePath with
  | true =>
    have h2 : ∀ v, setHost env o v = (.ok (), o) := by intro v; unfold setHost; rw [if_pos ho]
    left
    rw [h2, h2]
  | false =>
    have hp : (hostSetOut env.quiet .host o.url (removeTabNewline v)).2.hasOpaquePath = false := by
      unfold Rec.hasOpaquePath at ho ⊢
      rw [(hostSetOut_scheme ..).2]
      exact ho
    have e := setHost_eq env o w ho
    rw [setHost_eq env o v ho]
    dsimp only
    rw [setHost_eq env _ w (by exact hp), e]
    dsimp only
    obtain ⟨f1, -⟩ := hostSetOut_form env.quiet .host o.url (removeTabNewline v)
    rw [f1]
    generalize (hostSetOut env.quiet .host o.url (removeTabNewline v)).2.host = x at *
    generalize (hostSetOut env.quiet .host o.url (removeTabNewline v)).2.port = p at *
    cases hostSetOut_effect env.quiet .host o.url (removeTabNewline w) (fun _ => True)
        (hw.elim (fun h => .inr (.inl h)) .inl) with
    | none r h =>
      right; left
      have h0 := h o.url.host o.url.port trivial
      rw [h x p trivial, h0]
      exact ⟨rfl, rfl⟩
    | host r y h =>
      right; right
      have h0 := h o.url.host o.url.port trivial
      rw [h x p trivial, h0]
      exact ⟨rfl, rfl⟩
    | both r y q h =>
      left
      have h0 := h o.url.host o.url.port trivial
      rw [h x p trivial, h0]

theorem setPort_again (env : Env) (o : URLObj) (v w : Str) :
    setPort env (setPort env o v).2 w = setPort env o w ∨
      (setPort env o w = ((setPort env o w).1, o) ∧
        setPort env (setPort env o v).2 w = ((setPort env o w).1, (setPort env o v).2)) := by
  by_cases hw : w = []
  · exact .inl (port_again env o v w (.inl hw))
  · cases hu : o.url.cannotHaveUPP with
    | true =>
      have : ∀ v, setPort env o v = (.ok (), o) := by intro v; unfold setPort; rw [if_pos hu]
      left
      rw [this, this]
    | false =>
      have hp : ∃ p, (setPort env o v).2 = { o with url := { o.url with port := p } } := by
        by_cases hv : v = []
        · refine ⟨none, ?_⟩
          subst hv
          unfold setPort
          rw [hu]
          rfl
        · rw [setPort_eq env o v hu hv]
          rcases portOut_cases env.quiet o.url ((removeTabNewline v).takeWhile isDigit) with h | ⟨p, h⟩
          · rw [h _ rfl]; exact ⟨o.url.port, rfl⟩
          · rw [h _ rfl]; exact ⟨p, rfl⟩
      obtain ⟨p, hp⟩ := hp
      rw [hp, setPort_eq env o w hu hw, setPort_eq env { o with url := { o.url with port := p } } w (by exact hu) hw]
      dsimp only
      rcases portOut_cases env.quiet o.url ((removeTabNewline w).takeWhile isDigit) with h | ⟨q, h⟩
      · right
        rw [h { o.url with port := p } rfl, h o.url rfl]
        exact ⟨rfl, rfl⟩
      · left
        rw [h { o.url with port := p } rfl, h o.url rfl]

/-! ### Trailing white space of an opaque path -/

theorem white_iff {c : Nat} : (isPySpace c || (0x1C ≤ c && c ≤ 0x1F)) = true ↔ Spec.AsciiWhite c := by
  simp only [isPySpace, Spec.AsciiWhite, Bool.or_eq_true, Bool.and_eq_true, decide_eq_true_eq, beq_iff_eq]
  omega

/-- when `potentially_rstrip_from_opaque_path` changes the path -/
theorem rstrip_path_iff (u : Rec) : (potentiallyRstrip u).path ≠ u.path ↔
    u.fragment = none ∧ u.query = none ∧ ∃ s c, u.path = .opaque (s ++ [c]) ∧ Spec.AsciiWhite c := by
  by_cases h : ∀ s, u.path = .opaque s → u.fragment = none → u.query ≠ none
  · rw [rstrip_other h]
    constructor
    · intro hn; exact absurd rfl hn
    · rintro ⟨h1, h2, s, c, h3, _⟩; exact absurd h2 (h _ h3 h1)
  · simp only [not_forall] at h
    obtain ⟨s, hp, hf, hq⟩ := h
    have hq : u.query = none := by simpa using hq
    rw [rstrip_opaque hp hf hq]
    dsimp only
    rw [hp]
    constructor
    · intro hn
      refine ⟨hf, hq, ?_⟩
      rcases List.eq_nil_or_concat s with rfl | ⟨t, c, rfl⟩
      · exact absurd rfl hn
      · refine ⟨t, c, by simp, ?_⟩
        by_contra hc
        rw [← white_iff] at hc
        apply hn
        congr 1
        simp only [List.concat_eq_append, List.reverse_append, List.reverse_cons, List.reverse_nil, List.nil_append, List.cons_append]
        rw [List.dropWhile_cons, if_neg hc]
        simp
    · rintro ⟨_, _, t, c, h1, h2⟩ he
      simp only [Path.opaque.injEq] at h1 he
      rw [← white_iff] at h2
      have hl := congrArg List.length he
      rw [h1] at hl
      simp only [List.reverse_append, List.reverse_cons, List.reverse_nil, List.nil_append, List.cons_append] at hl
      rw [List.dropWhile_cons, if_pos h2] at hl
      have := (List.dropWhile_sublist (fun c => isPySpace c || (0x1C ≤ c && c ≤ 0x1F)) (l := t.reverse)).length_le
      simp at hl this
      omega

theorem rstrip_eq_of_path {u : Rec} (h : (potentiallyRstrip u).path = u.path) : potentiallyRstrip u = u := by
  by_cases h' : ∀ s, u.path = .opaque s → u.fragment = none → u.query ≠ none
  · exact rstrip_other h'
  · simp only [not_forall] at h'
    obtain ⟨s, hp, hf, hq⟩ := h'
    have hq : u.query = none := by simpa using hq
    rw [rstrip_opaque hp hf hq] at h ⊢
    dsimp only at h
    rw [h]

theorem hash_again_iff (env : Env) (o : URLObj) (w : Str) (hw : w ≠ []) :
    setHash env (setHash env o []).2 w = setHash env o w ↔ ¬ (o.url.query = none ∧ ∃ s c, o.url.path = .opaque (s ++ [c]) ∧ Spec.AsciiWhite c) := by
  have e0 : setHash env o [] = (.ok (), { o with url := potentiallyRstrip { o.url with fragment := none } }) := rfl
  have hk := rstrip_path_iff { o.url with fragment := none }
  rw [e0, setHash_eq env _ w hw, setHash_eq env o w hw]
  constructor
  · rintro h ⟨h1, h2⟩
    apply hk.2 ⟨rfl, h1, h2⟩
    have := congrArg (fun x => x.2.url.path) h
    exact this
  · intro h
    have : (potentiallyRstrip { o.url with fragment := none }).path = o.url.path := by
      by_contra hn
      obtain ⟨_, h1, h2⟩ := hk.1 hn
      exact h ⟨h1, h2⟩
    rw [rstrip_eq_of_path (u := { o.url with fragment := none }) this]

theorem search_again_iff (env : Env) (o : URLObj) (w : Str) (hw : w ≠ []) :
    setSearch env (setSearch env o []).2 w = setSearch env o w ↔
      ¬ (o.url.fragment = none ∧ ∃ s c, o.url.path = .opaque (s ++ [c]) ∧ Spec.AsciiWhite c) := by
  have e0 : setSearch env o [] = (.ok (), ⟨potentiallyRstrip { o.url with query := none },
      spOfQuery (potentiallyRstrip { o.url with query := none }).query⟩) := rfl
  have hk := rstrip_path_iff { o.url with query := none }
  rw [e0, setSearch_eq env _ w hw, setSearch_eq env o w hw]
  constructor
  · rintro h ⟨h1, h2⟩
    apply hk.2 ⟨h1, rfl, h2⟩
    have := congrArg (fun x => x.2.url.path) h
    exact this
  · intro h
    have : (potentiallyRstrip { o.url with query := none }).path = o.url.path := by
      by_contra hn
      obtain ⟨h1, _, h2⟩ := hk.1 hn
      exact h ⟨h1, h2⟩
    rw [rstrip_eq_of_path (u := { o.url with query := none }) this]
    rfl

end Urlstd
