/-
The rules for assignments: they agree with the setters, and there is one for every assignment.
-/
import Verif.Spec.Assign
import Verif.Lemmas.Api
import Verif.Lemmas.HostText
import Verif.Lemmas.Setter
import Verif.Lemmas.SchemeStart
import Verif.Lemmas.Denote
import Verif.Lemmas.Deviant
import Verif.Props.Denote

set_option linter.unusedSimpArgs false
set_option linter.unusedVariables false

namespace Urlstd

open Spec (HostPart Closed AuthorityEnd Assigns AssignsPort AssignsName AssignsHost AssignsPath LeadingDigits Occupied Replaceable
  Unmarked Assignment paramsAfter IsStr Digit SchemeText HasScheme CannotHaveUPP)

theorem head_dropWhile_false {p : Nat → Bool} {l : Str} {c : Nat} (h : (l.dropWhile p).head? = some c) : p c = false := by
  have := List.head?_dropWhile_not p l
  rw [h] at this
  exact this

/-! ### port -/

theorem leadingDigits_eq {t d : Str} (h : LeadingDigits t d) : t.takeWhile isDigit = d := by
  obtain ⟨h1, r, rfl, h2⟩ := h
  refine takeWhile_append (fun c hc => isDigit_iff.2 (h1 c hc)) fun c hc => ?_
  have := h2 c hc
  rw [← digit_eq]
  simpa using this

theorem leadingDigits_takeWhile (t : Str) : LeadingDigits t (t.takeWhile isDigit) := by
  refine ⟨fun c hc => isDigit_iff.1 (mem_takeWhile_true hc), t.dropWhile isDigit, (List.takeWhile_append_dropWhile ..).symm, ?_⟩
  intro c hc h
  have := head_dropWhile_false hc
  rw [isDigit_iff.2 h] at this
  cases this

theorem portOut_portOf (env : Env) (u : Rec) {d : Str} (hd : ∀ c ∈ d, Digit c) (hne : d ≠ []) :
    portOut env u d = match Spec.portOf env u.scheme (some d) with
      | .error e => (.error e, u)
      | .ok n => (.ok (), { u with port := n }) := by
  unfold portOut Spec.portOf
  have hd' : ∀ c ∈ d, isDigit c = true := fun c hc => by rw [← digit_eq]; simpa using hd c hc
  dsimp only
  rw [if_neg (by simpa using hne), if_neg (by simpa using hd), if_neg hne]
  by_cases hl : env.maxStrDigits ≠ 0 ∧ env.maxStrDigits < d.length
  · rw [pyInt_long env (s := d) ?_ hne ⟨by omega, hl.2⟩, if_pos hl]
    intro c hc
    have := hd' c hc
    unfold digitValue
    rw [if_pos this]
    rw [isDigit_iff] at this
    omega
  · rw [port_value env hd' hne (by omega), if_neg hl]
    dsimp only
    rw [show (Int.ofNat (Spec.decimal d)).toNat = Spec.decimal d from rfl]
    by_cases hbig : Spec.decimal d > 65535
    · rw [if_pos hbig, if_pos hbig]
    · rw [if_neg hbig, if_neg hbig, isDefault_eq]
      cases isDefaultPort u.scheme (Spec.decimal d) <;> rfl

theorem assignsPort_sound {env : Env} {u : Rec} {t : Str} {x : Except Err Unit} {w : Rec} (h : AssignsPort env u t x w) :
    portOut env u (t.takeWhile isDigit) = (x, w) := by
  cases h with
  | nothing h => rw [leadingDigits_eq h]; rfl
  | port d n hd h hn => rw [leadingDigits_eq h, portOut_portOf env u h.1 hd, hn]
  | refused d e hd h he => rw [leadingDigits_eq h, portOut_portOf env u h.1 hd, he]

theorem assignsPort_total (env : Env) (u : Rec) (t : Str) : ∃ x w, AssignsPort env u t x w := by
  have h := leadingDigits_takeWhile t
  by_cases hd : t.takeWhile isDigit = []
  · rw [hd] at h
    exact ⟨_, _, .nothing t h⟩
  · cases hp : Spec.portOf env u.scheme (some (t.takeWhile isDigit)) with
    | error e => exact ⟨_, _, .refused t _ e hd h hp⟩
    | ok n => exact ⟨_, _, .port t _ n hd h hp⟩

/-! ### host -/

theorem occupied_iff (u : Rec) : Occupied u ↔ (u.includesCredentials || u.portTruthy) = true := by
  unfold Occupied Rec.includesCredentials Rec.portTruthy
  cases u.port <;> simp [or_assoc]

theorem hostParse_empty (env : Env) : (hostParse env [] true).res = .ok (.str []) := rfl

theorem assignsName_sound {env : Env} {u : Rec} {b : Str} {x : Except Err Unit} {w : Rec} (h : AssignsName env u b x w) :
    hostEndOut env u b = (x, w) := by
  cases h with
  | needed h =>
    unfold hostEndOut
    rw [isSpecial_rec] at h
    rw [if_pos (by simp [h])]
  | kept h ho =>
    unfold hostEndOut
    rw [isSpecial_rec] at h
    rw [occupied_iff] at ho
    rw [if_neg (by simp [h]), if_pos (by simpa using ho)]
  | empty h ho =>
    unfold hostEndOut
    rw [isSpecial_rec] at h
    rw [occupied_iff] at ho
    rw [if_neg (by simp [h]), if_neg (by simpa using ho), h]
    simp only [Bool.not_false, hostParse_empty]
  | host _ v hb hv => rw [hostEndOut_visible env u b hb, ← isSpecial_rec, hv]
  | refused _ e hb he => rw [hostEndOut_visible env u b hb, ← isSpecial_rec, he]

theorem assignsName_total (env : Env) (u : Rec) (b : Str) : ∃ x w, AssignsName env u b x w := by
  by_cases hb : b = []
  · subst hb
    cases h : Spec.isSpecial u.scheme with
    | true => exact ⟨_, _, .needed h⟩
    | false =>
      by_cases ho : Occupied u
      · exact ⟨_, _, .kept h ho⟩
      · exact ⟨_, _, .empty h ho⟩
  · cases hp : (hostParse env b (!Spec.isSpecial u.scheme)).res with
    | error e => exact ⟨_, _, .refused b e hb hp⟩
    | ok n => exact ⟨_, _, .host b n hb hp⟩

/-- where the host of a text without tabs and newlines ends -/
theorem hostSpan_exact {sp : Bool} {b r : Str} (hb : HostPart sp b)
    (hr : ∀ c, r.head? = some c → AuthorityEnd sp c ∨ (c = 58 ∧ Closed b)) : hostSpan sp false (b ++ r) = (b, r) := by
  apply hostSpan_parts
  · exact hb.inside
  · intro a a' h
    rw [bracketAfter_false]
    exact hb.colon a a' (by rw [h]; simp)
  · intro c hc
    rcases hr c hc with h | ⟨h1, h2⟩
    · exact .inl h
    · refine .inr ⟨h1, ?_⟩
      unfold Closed at h2
      rw [← bracketAfter_false] at h2
      simpa using h2

theorem notFileHostEnd_spec (c : Nat) : notFileHostEnd c = true ↔ ¬ AuthorityEnd true c := by
  simp [notFileHostEnd, AuthorityEnd]
  omega

theorem hostSetOut_file {env : Env} {ov : PState} {u : Rec} {b r : Str} (hf : u.scheme = u!"file") (hb : ∀ c ∈ b, ¬ AuthorityEnd true c)
    (hr : ∀ c, r.head? = some c → AuthorityEnd true c) : hostSetOut env ov u (b ++ r) = fileHostOut env u b := by
  unfold hostSetOut
  rw [if_pos hf, takeWhile_append (fun c hc => (notFileHostEnd_spec c).2 (hb c hc))]
  intro c hc
  have := hr c hc
  rw [← Bool.not_eq_true, notFileHostEnd_spec]
  exact fun h => h this

theorem hostSetOut_colon {env : Env} {ov : PState} {u : Rec} {b r : Str} (hf : u.scheme ≠ u!"file") (hb : HostPart (Spec.isSpecial u.scheme) b)
    (hc : Closed b) : hostSetOut env ov u (b ++ u!":" ++ r) = hostOut env ov u b (58 :: r) := by
  unfold hostSetOut
  rw [isSpecial_rec] at hb
  rw [if_neg hf, List.append_assoc, hostSpan_exact hb (fun c h => .inr ⟨by cases h; rfl, hc⟩)]
  rfl

theorem hostSetOut_name {env : Env} {ov : PState} {u : Rec} {b r : Str} (hf : u.scheme ≠ u!"file") (hb : HostPart (Spec.isSpecial u.scheme) b)
    (hr : ∀ c, r.head? = some c → AuthorityEnd (Spec.isSpecial u.scheme) c) : hostSetOut env ov u (b ++ r) = hostEndOut env u b := by
  unfold hostSetOut
  rw [isSpecial_rec] at hb hr
  rw [if_neg hf, hostSpan_exact hb (fun c h => .inl (hr c h))]
  dsimp only
  unfold hostOut
  cases r with
  | nil => rfl
  | cons c cs =>
    have := hr c rfl
    dsimp only
    rw [if_neg]
    rintro rfl
    simp [AuthorityEnd] at this

theorem hostPart_nil (sp : Bool) : HostPart sp [] :=
  ⟨fun c hc => (by cases hc), fun a b h => (by cases a <;> cases h)⟩

theorem closed_nil : Closed [] := by
  unfold Closed
  rw [← bracketAfter_false]
  simp [bracketAfter]

theorem assignsHost_sound {env : Env} {u : Rec} {port : Bool} {ov : PState} (hov : if port then ov = .host else ov = .hostname) {t : Str}
    {x : Except Err Unit} {w : Rec} (h : AssignsHost env u port t x w) : hostSetOut env ov u t = (x, w) := by
  have hfile : u.scheme = u!"file" → u.isSpecial = true := fun hf => by rw [← isSpecial_rec, hf]; rfl
  cases h with
  | fileNone _ hf hr =>
    exact hostSetOut_file (b := []) hf (fun c hc => by cases hc) hr
  | file b r v hf hne hb hr hv =>
    rw [hostSetOut_file hf hb hr]
    unfold fileHostOut
    rw [if_neg (by simpa using hne), hfile hf, Bool.not_true, hv]
  | fileRefused b r e hf hne hb hr he =>
    rw [hostSetOut_file hf hb hr]
    unfold fileHostOut
    rw [if_neg (by simpa using hne), hfile hf, Bool.not_true, he]
  | name b r _ _ hf hb hr h => rw [hostSetOut_name hf hb hr, assignsName_sound h]
  | noName r hf =>
    have := hostSetOut_colon (env := env) (ov := ov) (r := r) hf (hostPart_nil _) closed_nil
    rw [List.nil_append] at this
    rw [this]
    rfl
  | ignored b r hp hf hne hb hc =>
    subst hp
    simp only [Bool.false_eq_true, if_false] at hov
    subst hov
    rw [hostSetOut_colon hf hb hc]
    unfold hostOut
    dsimp only
    rw [if_pos rfl, if_neg (by simpa using hne), if_pos rfl]
  | both b r v _ _ hp hf hne hb hc hv h =>
    subst hp
    simp only [if_true] at hov
    subst hov
    rw [hostSetOut_colon hf hb hc]
    unfold hostOut
    dsimp only
    rw [if_pos rfl, if_neg (by simpa using hne), if_neg (by decide), ← isSpecial_rec, hv]
    exact assignsPort_sound h
  | refused b r e hp hf hne hb hc he =>
    subst hp
    simp only [if_true] at hov
    subst hov
    rw [hostSetOut_colon hf hb hc]
    unfold hostOut
    dsimp only
    rw [if_pos rfl, if_neg (by simpa using hne), if_neg (by decide), ← isSpecial_rec, he]

theorem assignsHost_total (env : Env) (u : Rec) (port : Bool) (v : Str) : ∃ x w, AssignsHost env u port (removeTabNewline v) x w := by
  by_cases hf : u.scheme = u!"file"
  · generalize removeTabNewline v = t
    have h1 : ∀ c ∈ t.takeWhile notFileHostEnd, ¬ AuthorityEnd true c :=
      fun c hc => (notFileHostEnd_spec c).1 (mem_takeWhile_true hc)
    have h2 : ∀ c, (t.dropWhile notFileHostEnd).head? = some c → AuthorityEnd true c := by
      intro c hc
      have := head_dropWhile_false hc
      have h3 : ¬ notFileHostEnd c = true := by simpa using this
      rw [notFileHostEnd_spec] at h3
      exact Classical.not_not.1 h3
    rw [← List.takeWhile_append_dropWhile (p := notFileHostEnd) (l := t)]
    by_cases hb : t.takeWhile notFileHostEnd = []
    · rw [hb]
      exact ⟨_, _, .fileNone _ hf h2⟩
    · cases hp : (hostParse env (t.takeWhile notFileHostEnd) false).res with
      | error e => exact ⟨_, _, .fileRefused _ _ e hf hb h1 h2 hp⟩
      | ok n => exact ⟨_, _, .file _ _ n hf hb h1 h2 hp⟩
  · obtain ⟨b, r, hb, ht, hr⟩ := hostText_split (Spec.isSpecial u.scheme) v
    rw [ht]
    rcases hr with hr | ⟨r, rfl, hc⟩
    · obtain ⟨x, w, h⟩ := assignsName_total env u b
      exact ⟨x, w, .name b r x w hf hb hr h⟩
    · by_cases hne : b = []
      · subst hne
        exact ⟨_, _, .noName r hf⟩
      · rw [← List.append_assoc]
        cases port with
        | false => exact ⟨_, _, .ignored b r rfl hf hne hb hc⟩
        | true =>
          cases hp : (hostParse env b (!Spec.isSpecial u.scheme)).res with
          | error e => exact ⟨_, _, .refused b r e rfl hf hne hb hc hp⟩
          | ok n =>
            obtain ⟨x, w, h⟩ := assignsPort_total env { u with host := some n } r
            exact ⟨x, w, .both b r n x w rfl hf hne hb hc hp h⟩

/-! ### pathname -/

theorem isPathSep_spec (sp : Bool) (c : Nat) : isPathSep sp c = true ↔ Spec.Slash sp c := by
  simp [isPathSep, Spec.Slash]

theorem pieces_follow {u : Rec} {t : Str} (ht : IsStr t) : addPieces u.scheme [] (pathPieces u.isSpecial t) =
    Spec.follow (Spec.isFile u.scheme) [] (Spec.segmentsOf (Spec.isSpecial u.scheme) t) := by
  rw [isSpecial_rec, segmentsOf_eq]
  exact addPieces_follow _ _ (fun a ha c hc => ht c (pathPieces_mem a ha c hc)) _

theorem assignsPath_sound {u : Rec} {t : Str} {p : List Str} (ht : IsStr t) (h : AssignsPath u t p) : pathnameSegs u t = p := by
  cases h with
  | none h hh =>
    unfold pathnameSegs
    dsimp only
    rw [isSpecial_rec] at h
    rw [if_neg]
    simpa [h] using hh
  | root h =>
    unfold pathnameSegs
    dsimp only
    rw [isSpecial_rec] at h
    rw [if_pos]
    simpa using h
  | slash s t h =>
    unfold pathnameSegs
    dsimp only
    rw [isSpecial_rec, ← isPathSep_spec] at h
    rw [if_pos h, pieces_follow (fun c hc => ht c (List.mem_cons_of_mem _ hc))]
  | bare _ hne h =>
    cases t with
    | nil => exact absurd rfl hne
    | cons c cs =>
      unfold pathnameSegs
      dsimp only
      have := h c rfl
      rw [isSpecial_rec, ← isPathSep_spec] at this
      rw [if_neg this, pieces_follow ht]

theorem assignsPath_total (u : Rec) (t : Str) : ∃ p, AssignsPath u t p := by
  cases t with
  | nil =>
    by_cases h : Spec.isSpecial u.scheme = true ∨ u.host = none
    · exact ⟨_, .root h⟩
    · exact ⟨_, .none (by simpa using fun h1 => h (.inl h1)) (fun h2 => h (.inr h2))⟩
  | cons c cs =>
    by_cases h : Spec.Slash (Spec.isSpecial u.scheme) c
    · exact ⟨_, .slash c cs h⟩
    · exact ⟨_, .bare _ (by simp) (fun x hx => by cases hx; exact h)⟩

/-! ### protocol -/

theorem defaultPort_zero (s : Str) : isDefaultPort s 0 = false := by
  unfold isDefaultPort specialPort
  repeat' split
  all_goals rfl

theorem replaceable_iff (u : Rec) (sc : Str) : Replaceable u sc ↔ schemeRefused u sc = false := by
  unfold Replaceable schemeRefused
  rw [occupied_iff, isSpecial_rec, isSpecial_eq]
  have : u.hostNoneOrEmpty = true ↔ (u.host = none ∨ u.host = some (.str [])) := by
    unfold Rec.hostNoneOrEmpty
    rcases u.host with _ | h
    · simp
    · cases h <;> simp
  rw [← this]
  cases u.isSpecial <;> cases isSpecialScheme sc <;> cases (u.includesCredentials || u.portTruthy) <;> cases u.hostNoneOrEmpty <;> simp

theorem overrideScheme_replaceable {u : Rec} {sc : Str} (h : Replaceable u sc) :
    overrideScheme u sc = { u with scheme := sc, port := Spec.portFor sc u.port } := by
  rw [replaceable_iff] at h
  unfold overrideScheme
  rw [if_neg (by simp [h])]
  dsimp only
  cases hp : u.port with
  | none => rfl
  | some p =>
    dsimp only
    have e : Spec.portFor sc (some p) = if isDefaultPort sc p then none else some p := by rw [← isDefault_eq]; rfl
    rw [e]
    by_cases h0 : p = 0
    · subst h0
      rw [defaultPort_zero]
      simp
    · cases hd : isDefaultPort sc p
      · simp
      · simp [h0]

theorem colon_notab : removeTabNewline u!":" = u!":" := by decide

/-! ### the rest -/

theorem cannotHaveUPP_spec (u : Rec) : u.cannotHaveUPP = true ↔ CannotHaveUPP u := by
  unfold CannotHaveUPP Rec.cannotHaveUPP Rec.hostNoneOrEmpty
  rcases u.host with _ | h
  · simp
  · cases h <;> simp

theorem unmarked_eq {c : Nat} {v t : Str} (h : Unmarked c v t) : dropLead c v = t := by
  unfold dropLead
  rcases h with rfl | ⟨rfl, h⟩
  · simp
  · cases v with
    | nil => rfl
    | cons d ds => dsimp only; rw [if_neg]; simpa using h

theorem unmarked_dropLead (c : Nat) (v : Str) : Unmarked c v (dropLead c v) := by
  unfold dropLead Unmarked
  cases v with
  | nil => simp
  | cons d ds =>
    dsimp only
    by_cases h : d = c
    · subst h; simp
    · simp [h]

theorem unmarked_str {c : Nat} {v t : Str} (hv : IsStr v) (h : Unmarked c v t) : IsStr t := by
  rcases h with rfl | ⟨rfl, h⟩
  · exact fun x hx => hv x (List.mem_cons_of_mem _ hx)
  · exact hv

theorem isStr_dropTabs {v : Str} (hv : IsStr v) : IsStr (removeTabNewline v) :=
  fun c hc => hv c (List.mem_filter.1 hc).1

theorem setHref_denotes {env : Env} {o : URLObj} {v : Str} (hv : IsStr v) {x : Except Err Rec}
    (h : Spec.Denotes env.quiet none (Spec.dropTabs (Spec.stripC0 v)) x) :
    setHref env o v = match x with
      | .ok r => (.ok (), ⟨r, spOfQuery r.query⟩)
      | .error e => (.error e, o) := by
  have := (Props.C83_denotes env.quiet v none hv (fun b h => by cases h) x).2 h
  rw [Props.parse_baseArg_res] at this
  unfold setHref
  rw [this]
  cases x <;> rfl

theorem assigns_sound {env : Env} {o : URLObj} (h : Reached env o) {op : Op} (hop : Assignment op) {x : Except Err Unit} {w : Rec}
    (ha : Assigns env.quiet o.url op x w) : applyOp env o op = (x, ⟨w, paramsAfter o.params w op x⟩) := by
  have hok := h.objOK (hostSpec_true env.quiet)
  have hafter : ∀ (y : Except Err Unit) (w : Rec), applyOp env o op = (y, ⟨w, spOfQuery w.query⟩) →
      applyOp env o op = (y, ⟨w, Spec.queryList w.query⟩) := by
    intro y w hy
    have hr := objOK_op (hostSpec_true env.quiet) hok (op := op) (by cases op <;> first | exact hop | exact hop.elim)
    rw [hy] at hr
    have hs : ∀ s, w.query = some s → IsStr s := fun s hs c hc => by
      have := (hr.url.queryOK s hs c hc).1.2
      omega
    rw [hy, queryList_eq hs]
  have hop' : ∀ p, o.url.path = .opaque p → o.url.hasOpaquePath = true := fun p hp => by unfold Rec.hasOpaquePath; rw [hp]
  have hlist : (∀ p, o.url.path ≠ .opaque p) → o.url.hasOpaquePath = false := fun hp => by
    unfold Rec.hasOpaquePath
    cases hq : o.url.path with
    | list p => rfl
    | «opaque» p => exact absurd hq (hp p)
  have hcan : ¬ CannotHaveUPP o.url → o.url.cannotHaveUPP = false := fun hc => by
    rw [← cannotHaveUPP_spec] at hc
    simpa using hc
  cases ha with
  | href v w hd =>
    exact hafter _ _ (setHref_denotes hop hd)
  | hrefRefused v e hd =>
    show setHref env o v = _
    rw [setHref_denotes hop hd]
    rfl
  | protocol v sc r hsc hv hr =>
    show setProtocol env o v = _
    rw [setProtocol_eq, removeTab_append, colon_notab, ← dropTabs_eq, hv, List.append_assoc]
    rw [show (u!":" ++ r : Str) = 58 :: r from rfl, takeScheme_any hsc]
    dsimp only
    rw [overrideScheme_replaceable hr]
    rfl
  | protocolKept v sc r hsc hv hr =>
    show setProtocol env o v = _
    rw [setProtocol_eq, removeTab_append, colon_notab, ← dropTabs_eq, hv, List.append_assoc]
    rw [show (u!":" ++ r : Str) = 58 :: r from rfl, takeScheme_any hsc]
    dsimp only
    rw [replaceable_iff, Bool.not_eq_false] at hr
    unfold overrideScheme
    rw [if_pos hr]
    rfl
  | protocolRefused v hn =>
    show setProtocol env o v = _
    rw [setProtocol_eq, removeTab_append, colon_notab, ← dropTabs_eq, takeScheme_none hn]
    rfl
  | username v hc =>
    show setUsername o v = _
    unfold setUsername
    rw [hcan hc, userinfoEncode_eq hop]
    rfl
  | usernameKept v hc =>
    show setUsername o v = _
    unfold setUsername
    rw [if_pos ((cannotHaveUPP_spec _).2 hc)]
    rfl
  | password v hc =>
    show setPassword o v = _
    unfold setPassword
    rw [hcan hc, userinfoEncode_eq hop]
    rfl
  | passwordKept v hc =>
    show setPassword o v = _
    unfold setPassword
    rw [if_pos ((cannotHaveUPP_spec _).2 hc)]
    rfl
  | host v x w hp hh =>
    show setHost env o v = _
    rw [dropTabs_eq] at hh
    rw [setHost_eq env o v (hlist hp), assignsHost_sound (by simp) hh]
    rfl
  | hostKept v p hp =>
    show setHost env o v = _
    unfold setHost
    rw [if_pos (hop' p hp)]
    rfl
  | hostname v x w hp hh =>
    show setHostname env o v = _
    rw [dropTabs_eq] at hh
    rw [setHostname_eq env o v (hlist hp), assignsHost_sound (by simp) hh]
    rfl
  | hostnameKept v p hp =>
    show setHostname env o v = _
    unfold setHostname
    rw [if_pos (hop' p hp)]
    rfl
  | portOff hc =>
    show setPort env o [] = _
    unfold setPort
    rw [hcan hc]
    rfl
  | port v x w hc hv hh =>
    show setPort env o v = _
    rw [dropTabs_eq] at hh
    rw [setPort_eq env o v (hcan hc) hv, assignsPort_sound hh]
    rfl
  | portKept v hc =>
    show setPort env o v = _
    unfold setPort
    rw [if_pos ((cannotHaveUPP_spec _).2 hc)]
    rfl
  | pathname v p hp hh =>
    show setPathname env o v = _
    rw [dropTabs_eq] at hh
    rw [setPathname_eq env o v (hlist hp), assignsPath_sound (isStr_dropTabs hop) hh]
    rfl
  | pathnameKept v p hp =>
    show setPathname env o v = _
    unfold setPathname
    rw [if_pos (hop' p hp)]
    rfl
  | searchOff =>
    have e : Spec.stripOpaque { o.url with query := none } = potentiallyRstrip { o.url with query := none } :=
      stripOpaque_eq (u := { o.url with query := none }) (opaqueOK_of hok)
    apply hafter
    rw [e]
    rfl
  | search v t hv hu =>
    have e : encodeQuery .utf8 o.url (removeTabNewline t) = Spec.queryEncode (Spec.isSpecial o.url.scheme) (Spec.dropTabs t) := by
      rw [dropTabs_eq, ← queryEncode_eq (isStr_dropTabs (unmarked_str hop hu)), isSpecial_rec]
      unfold encodeQuery
      rw [ite_self]
      rfl
    apply hafter
    show setSearch env o v = _
    rw [setSearch_eq env o v hv, unmarked_eq hu, e]
  | hashOff =>
    show setHash env o [] = _
    have e : Spec.stripOpaque { o.url with fragment := none } = potentiallyRstrip { o.url with fragment := none } :=
      stripOpaque_eq (u := { o.url with fragment := none }) (opaqueOK_of hok)
    unfold setHash
    rw [if_pos (by rfl), e]
    rfl
  | hash v t hv hu =>
    show setHash env o v = _
    rw [setHash_eq env o v hv, unmarked_eq hu, fragmentEncode_eq (isStr_dropTabs (unmarked_str hop hu)), dropTabs_eq]
    rfl

theorem assigns_total (env : Env) (u : Rec) {op : Op} (hop : Assignment op) : ∃ x w, Assigns env u op x w := by
  have hpath : (∃ p, u.path = .opaque p) ∨ ∀ p, u.path ≠ .opaque p := by
    cases hq : u.path with
    | list p => exact .inr (fun p h => by cases h)
    | «opaque» p => exact .inl ⟨p, rfl⟩
  cases op with
  | href v =>
    obtain ⟨x, hx⟩ := Props.denotes_total env (base := none) (fun b h => by cases h) (Spec.dropTabs (Spec.stripC0 v))
    cases x with
    | error e => exact ⟨_, _, .hrefRefused v e hx⟩
    | ok w => exact ⟨_, _, .href v w hx⟩
  | protocol v =>
    by_cases hs : HasScheme (Spec.dropTabs v ++ u!":")
    · obtain ⟨sc, r, hsc, hv⟩ := hs
      by_cases hr : Replaceable u (Spec.toLower sc)
      · exact ⟨_, _, .protocol v sc r hsc hv hr⟩
      · exact ⟨_, _, .protocolKept v sc r hsc hv hr⟩
    · exact ⟨_, _, .protocolRefused v hs⟩
  | username v =>
    by_cases hc : CannotHaveUPP u
    · exact ⟨_, _, .usernameKept v hc⟩
    · exact ⟨_, _, .username v hc⟩
  | password v =>
    by_cases hc : CannotHaveUPP u
    · exact ⟨_, _, .passwordKept v hc⟩
    · exact ⟨_, _, .password v hc⟩
  | host v =>
    rcases hpath with ⟨p, hp⟩ | hp
    · exact ⟨_, _, .hostKept v p hp⟩
    · obtain ⟨x, w, h⟩ := assignsHost_total env u true v
      rw [← dropTabs_eq] at h
      exact ⟨x, w, .host v x w hp h⟩
  | hostname v =>
    rcases hpath with ⟨p, hp⟩ | hp
    · exact ⟨_, _, .hostnameKept v p hp⟩
    · obtain ⟨x, w, h⟩ := assignsHost_total env u false v
      rw [← dropTabs_eq] at h
      exact ⟨x, w, .hostname v x w hp h⟩
  | port v =>
    by_cases hc : CannotHaveUPP u
    · exact ⟨_, _, .portKept v hc⟩
    · by_cases hv : v = []
      · subst hv
        exact ⟨_, _, .portOff hc⟩
      · obtain ⟨x, w, h⟩ := assignsPort_total env u (Spec.dropTabs v)
        exact ⟨x, w, .port v x w hc hv h⟩
  | pathname v =>
    rcases hpath with ⟨p, hp⟩ | hp
    · exact ⟨_, _, .pathnameKept v p hp⟩
    · obtain ⟨p, h⟩ := assignsPath_total u (Spec.dropTabs v)
      exact ⟨_, _, .pathname v p hp h⟩
  | search v =>
    by_cases hv : v = []
    · subst hv
      exact ⟨_, _, .searchOff⟩
    · exact ⟨_, _, .search v _ hv (unmarked_dropLead _ v)⟩
  | hash v =>
    by_cases hv : v = []
    · subst hv
      exact ⟨_, _, .hashOff⟩
    · exact ⟨_, _, .hash v _ hv (unmarked_dropLead _ v)⟩
  | spAppend => exact hop.elim
  | spDelete => exact hop.elim
  | spSet => exact hop.elim
  | spSort => exact hop.elim

end Urlstd
