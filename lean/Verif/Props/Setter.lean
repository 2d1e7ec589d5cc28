/-
Properties C42-C44: single assignments to the attributes of a `URL`.
-/
import Verif.Lemmas.SetterFrame
import Verif.Props.Parsed

set_option linter.unusedSimpArgs false
set_option linter.unusedVariables false

namespace Urlstd.Props

open Spec (Comp AgreeExcept Stripped AsciiWhite CannotHaveUPP mayChange changesParams changesTail)

/-- a URL object used in the examples -/
def exObj : URLObj := ⟨exRecord, spOfQuery exRecord.query⟩
/-- "mailto:a b?c" as an object -/
def exOpaqueObj : URLObj := ⟨{ scheme := u!"mailto", path := .opaque u!"a b", query := some u!"c" }, [(u!"c", [])]⟩

/-! ### C42 -/

theorem spUpdate_agree (l : Params) (u : Rec) :
    AgreeExcept [.query, .path] u (spUpdate l u) ∧ Stripped u.path (spUpdate l u).path := by
  have hq : ∀ q, AgreeExcept [.query, .path] u { u with query := q } := by
    intro q c hc; cases c <;> first | rfl | simp at hc
  unfold spUpdate
  dsimp only
  split
  · obtain ⟨h1, h2⟩ := rstrip_agree { u with query := none }
    refine ⟨fun c hc => Comp.Same.trans (hq none c hc) (h1 c (by simp at hc ⊢; exact hc.2)), h2⟩
  · exact ⟨hq _, .inl rfl⟩

/-- C42. Whatever the URL, the operation and the assigned value, and whether or not an exception is
raised: only the operation's own component changes; besides, `host` may change the port, `protocol`
the port, and the operations on query and fragment the path (see the next two theorems). -/
theorem C42_own_component_only (env : Env) (o : URLObj) (op : Op) :
    AgreeExcept (mayChange op) o.url (applyOp env o op).2.url := by
  cases op with
  | hash v =>
    show AgreeExcept _ _ (setHash env o v).2.url
    by_cases hv : v = []
    · subst hv
      intro c hc
      have := (rstrip_agree { o.url with fragment := none }).1 c (by simp [mayChange] at hc ⊢; exact hc.2)
      refine Comp.Same.trans ?_ this
      cases c <;> first | rfl | simp [mayChange] at hc
    · rw [setHash_eq env o v hv]
      intro c hc
      cases c <;> first | rfl | simp [mayChange] at hc
  | host v =>
    show AgreeExcept _ _ (setHost env o v).2.url
    cases ho : o.url.hasOpaquePath with
    | true => unfold setHost; rw [ho]; exact agree_refl _ _
    | false => rw [setHost_eq env o v ho]; exact (hostSetOut_agree ..).1
  | hostname v =>
    show AgreeExcept _ _ (setHostname env o v).2.url
    cases ho : o.url.hasOpaquePath with
    | true => unfold setHostname; rw [ho]; exact agree_refl _ _
    | false => rw [setHostname_eq env o v ho]; exact (hostSetOut_agree ..).2 rfl
  | href v => intro c hc; cases c <;> simp [mayChange] at hc
  | password v =>
    show AgreeExcept _ _ (setPassword o v).2.url
    unfold setPassword
    split
    · exact agree_refl _ _
    · intro c hc; cases c <;> first | rfl | simp [mayChange] at hc
  | pathname v =>
    show AgreeExcept _ _ (setPathname env o v).2.url
    cases ho : o.url.hasOpaquePath with
    | true => unfold setPathname; rw [ho]; exact agree_refl _ _
    | false =>
      rw [setPathname_eq env o v ho]
      intro c hc; cases c <;> first | rfl | simp [mayChange] at hc
  | port v =>
    show AgreeExcept _ _ (setPort env o v).2.url
    cases hu : o.url.cannotHaveUPP with
    | true => unfold setPort; rw [hu]; exact agree_refl _ _
    | false =>
      by_cases hv : v = []
      · subst hv
        unfold setPort
        rw [hu]
        intro c hc; cases c <;> first | rfl | simp [mayChange] at hc
      · rw [setPort_eq env o v hu hv]
        exact portOut_agree _ _ _
  | protocol v =>
    show AgreeExcept _ _ (setProtocol env o v).2.url
    rw [setProtocol_eq]
    split
    · exact agree_refl _ _
    · next sc _ _ =>
      intro c hc
      unfold overrideScheme
      split
      · exact agree_refl [] _ c (by simp)
      · dsimp only
        split
        · split <;> cases c <;> first | rfl | simp [mayChange] at hc
        · cases c <;> first | rfl | simp [mayChange] at hc
  | search v =>
    show AgreeExcept _ _ (setSearch env o v).2.url
    by_cases hv : v = []
    · subst hv
      intro c hc
      have := (rstrip_agree { o.url with query := none }).1 c (by simp [mayChange] at hc ⊢; exact hc.2)
      refine Comp.Same.trans ?_ this
      cases c <;> first | rfl | simp [mayChange] at hc
    · rw [setSearch_eq env o v hv]
      intro c hc
      cases c <;> first | rfl | simp [mayChange] at hc
  | username v =>
    show AgreeExcept _ _ (setUsername o v).2.url
    unfold setUsername
    split
    · exact agree_refl _ _
    · intro c hc; cases c <;> first | rfl | simp [mayChange] at hc
  | spAppend n v => exact (spUpdate_agree ..).1
  | spDelete n v => exact (spUpdate_agree ..).1
  | spSet n v => exact (spUpdate_agree ..).1
  | spSort => exact (spUpdate_agree ..).1

/-- C42. The operations on the query and the fragment change the path only by removing trailing white
space from an opaque path, and only if a query or fragment is removed. -/
theorem C42_path_only_stripped (env : Env) (o : URLObj) (op : Op) (h : changesTail op = true) :
    Stripped o.url.path (applyOp env o op).2.url.path ∧
      ((applyOp env o op).2.url.query ≠ none ∨ (applyOp env o op).2.url.fragment ≠ none →
        (applyOp env o op).2.url.path = o.url.path) := by
  have hr : ∀ u : Rec, u.path = o.url.path → Stripped o.url.path (potentiallyRstrip u).path ∧
      ((potentiallyRstrip u).query ≠ none ∨ (potentiallyRstrip u).fragment ≠ none →
        (potentiallyRstrip u).path = o.url.path) := by
    intro u hu
    refine ⟨hu ▸ (rstrip_agree u).2, fun hq => ?_⟩
    rcases rstrip_cases u with h | ⟨s, w, _, h1, h2, h3, _⟩
    · rw [h, hu]
    · rw [h3] at hq
      rcases hq with hq | hq
      · exact absurd h2 hq
      · exact absurd h1 hq
  have hsp : ∀ l : Params, Stripped o.url.path (spUpdate l o.url).path ∧
      ((spUpdate l o.url).query ≠ none ∨ (spUpdate l o.url).fragment ≠ none →
        (spUpdate l o.url).path = o.url.path) := by
    intro l
    unfold spUpdate
    dsimp only
    split
    · exact hr { o.url with query := none } rfl
    · exact ⟨.inl rfl, fun _ => rfl⟩
  cases op with
  | hash v =>
    show Stripped _ (setHash env o v).2.url.path ∧
      ((setHash env o v).2.url.query ≠ none ∨ (setHash env o v).2.url.fragment ≠ none →
        (setHash env o v).2.url.path = _)
    by_cases hv : v = []
    · subst hv
      exact hr { o.url with fragment := none } rfl
    · rw [setHash_eq env o v hv]
      exact ⟨.inl rfl, fun _ => rfl⟩
  | search v =>
    show Stripped _ (setSearch env o v).2.url.path ∧
      ((setSearch env o v).2.url.query ≠ none ∨ (setSearch env o v).2.url.fragment ≠ none →
        (setSearch env o v).2.url.path = _)
    by_cases hv : v = []
    · subst hv
      exact hr { o.url with query := none } rfl
    · rw [setSearch_eq env o v hv]
      exact ⟨.inl rfl, fun _ => rfl⟩
  | spAppend n v => exact hsp _
  | spDelete n v => exact hsp _
  | spSet n v => exact hsp _
  | spSort => exact hsp _
  | host _ | hostname _ | href _ | password _ | pathname _ | port _ | protocol _ | username _ => cases h

/-- C42. `protocol` changes the port only by dropping one that is the default of the new scheme. -/
theorem C42_protocol_port (env : Env) (o : URLObj) (v : Str) :
    (applyOp env o (.protocol v)).2.url.port = o.url.port ∨
      ((applyOp env o (.protocol v)).2.url.port = none ∧
        ((applyOp env o (.protocol v)).2.url.scheme, o.url.port) ∈ Spec.specialSchemes) := by
  show (setProtocol env o v).2.url.port = _ ∨ (setProtocol env o v).2.url.port = none ∧
    ((setProtocol env o v).2.url.scheme, _) ∈ _
  rw [setProtocol_eq]
  split
  · exact .inl rfl
  · next sc _ _ =>
    show (overrideScheme o.url sc).port = _ ∨ (overrideScheme o.url sc).port = none ∧
      ((overrideScheme o.url sc).scheme, _) ∈ _
    unfold overrideScheme
    split
    · exact .inl rfl
    · dsimp only
      cases hp : o.url.port with
      | none => exact .inl rfl
      | some p =>
        dsimp only
        by_cases hd : (p != 0 && isDefaultPort sc p) = true
        · rw [if_pos hd]
          rw [Bool.and_eq_true] at hd
          exact .inr ⟨rfl, default_mem hd.2⟩
        · rw [if_neg hd]; exact .inl rfl

/-- C42. `search_params` is changed by `search`, `href` and its own methods only. -/
theorem C42_params_unchanged (env : Env) (o : URLObj) (op : Op) (h : changesParams op = false) :
    (applyOp env o op).2.params = o.params := by
  cases op with
  | hash v =>
    show (setHash env o v).2.params = _
    unfold setHash; split <;> rfl
  | host v =>
    show (setHost env o v).2.params = _
    unfold setHost; split <;> rfl
  | hostname v =>
    show (setHostname env o v).2.params = _
    unfold setHostname; split <;> rfl
  | password v =>
    show (setPassword o v).2.params = _
    unfold setPassword; split <;> rfl
  | pathname v =>
    show (setPathname env o v).2.params = _
    unfold setPathname; split <;> rfl
  | port v =>
    show (setPort env o v).2.params = _
    unfold setPort; split; · rfl
    split <;> rfl
  | protocol v => rfl
  | username v =>
    show (setUsername o v).2.params = _
    unfold setUsername; split <;> rfl
  | href _ | search _ | spAppend _ _ | spDelete _ _ | spSet _ _ | spSort => cases h

example : (applyOp exEnv exObj (.host u!"Other:1")).2.url =
    { exRecord with host := some (.str u!"other"), port := some 1 } := by decide +kernel
example : changesTail (.search []) = true ∧ (applyOp exEnv
    ⟨{ scheme := u!"mailto", path := .opaque u!"a  ", query := some u!"c" }, [(u!"c", [])]⟩ (.search [])).2.url =
    { scheme := u!"mailto", path := .opaque u!"a" } := by decide +kernel

/-! ### C43 -/

/-- C43. `host`, `hostname` and `pathname` have no effect on a URL with an opaque path. -/
theorem C43_opaque_path (env : Env) (o : URLObj) (v : Str) (h : ∃ s, o.url.path = .opaque s) :
    applyOp env o (.host v) = (.ok (), o) ∧ applyOp env o (.hostname v) = (.ok (), o) ∧
      applyOp env o (.pathname v) = (.ok (), o) := by
  obtain ⟨s, hs⟩ := h
  have ho : o.url.hasOpaquePath = true := by unfold Rec.hasOpaquePath; rw [hs]
  refine ⟨?_, ?_, ?_⟩
  · show setHost env o v = _; unfold setHost; rw [if_pos ho]
  · show setHostname env o v = _; unfold setHostname; rw [if_pos ho]
  · show setPathname env o v = _; unfold setPathname; rw [if_pos ho]

/-- C43. `username`, `password` and `port` have no effect on a URL that cannot have them. -/
theorem C43_cannot_have (env : Env) (o : URLObj) (v : Str) (h : CannotHaveUPP o.url) :
    applyOp env o (.username v) = (.ok (), o) ∧ applyOp env o (.password v) = (.ok (), o) ∧
      applyOp env o (.port v) = (.ok (), o) := by
  have hc : o.url.cannotHaveUPP = true := by
    unfold Rec.cannotHaveUPP Rec.hostNoneOrEmpty
    rcases h with h | h | h
    · rw [h]; rfl
    · rw [h]; rfl
    · rw [h]; simp
  refine ⟨?_, ?_, ?_⟩
  · show setUsername o v = _; unfold setUsername; rw [if_pos hc]
  · show setPassword o v = _; unfold setPassword; rw [if_pos hc]
  · show setPort env o v = _; unfold setPort; rw [if_pos hc]

/-- C43. `protocol` does not switch between special and other schemes. -/
theorem C43_protocol_special (env : Env) (o : URLObj) (v : Str) :
    Spec.Special (applyOp env o (.protocol v)).2.url.scheme ↔ Spec.Special o.url.scheme := by
  show Spec.Special (setProtocol env o v).2.url.scheme ↔ _
  rw [setProtocol_eq]
  split
  · exact Iff.rfl
  · next sc _ _ =>
    show Spec.Special (overrideScheme o.url sc).scheme ↔ _
    rw [← special_iff, ← special_iff]
    unfold overrideScheme
    split
    · exact Iff.rfl
    · next hr =>
      have hs : ∀ u : Rec, u.scheme = sc → (isSpecialScheme u.scheme = true ↔ isSpecialScheme o.url.scheme = true) := by
        intro u hu
        rw [hu]
        simp only [schemeRefused, Rec.isSpecial, Bool.or_eq_true, not_or, Bool.and_eq_true, Bool.not_eq_true', not_and,
          Bool.not_eq_false] at hr
        constructor
        · intro h1
          cases h2 : isSpecialScheme o.url.scheme
          · exact absurd h1 (hr.1.1.2 h2)
          · rfl
        · intro h1; exact hr.1.1.1 h1
      dsimp only
      split
      · split <;> exact hs _ rfl
      · exact hs _ rfl

example : ∃ s, exOpaqueObj.url.path = .opaque s := ⟨_, rfl⟩
example : CannotHaveUPP { scheme := u!"foo", host := some (.str []), path := .list [u!"x"] } := .inr (.inl rfl)
-- the setters do something otherwise
example : (applyOp exEnv exObj (.protocol u!"wss")).2.url.scheme = u!"wss" ∧
    (applyOp exEnv exObj (.protocol u!"foo")).2.url.scheme = u!"http" ∧
    (applyOp exEnv exObj (.username u!"x y")).2.url.username = u!"x%20y" := by decide +kernel

/-! ### C44 -/

/-- C44 is false: `host` is assigned before the port is found to be out of range. -/
theorem C44_false_host : applyOp exEnv exObj (.host u!"x:99999") =
    (.error .urlParse, { exObj with url := { exRecord with host := some (.str u!"x") } }) := by decide +kernel

theorem portOut_fail {env : Env} {u : Rec} {d : Str} {err : Err} (hp : (portOut env u d).1 = .error err) :
    (portOut env u d).2 = u := by
    unfold portOut at hp ⊢
    split
    · rfl
    · next h1 =>
      rw [if_neg h1] at hp
      split
      · rfl
      · next h2 =>
        rw [h2] at hp
        dsimp only at hp
        split
        · rfl
        · next h3 => rw [if_neg h3] at hp; cases hp

theorem hostEndOut_fail {env : Env} {u : Rec} {b : Str} {err : Err} (hp : (hostEndOut env u b).1 = .error err) :
    (hostEndOut env u b).2 = u := by
    unfold hostEndOut at hp ⊢
    split
    · rfl
    · next h1 =>
      rw [if_neg h1] at hp
      split
      · rfl
      · next h2 =>
        rw [if_neg h2] at hp
        split
        · rfl
        · next h3 => rw [h3] at hp; cases hp
theorem fileHostOut_fail {env : Env} {u : Rec} {b : Str} {err : Err} (h : (fileHostOut env u b).1 = .error err) :
    (fileHostOut env u b).2 = u := by
  unfold fileHostOut at h ⊢
  split
  · next hb => rw [if_pos hb] at h; cases h
  · next hb =>
    rw [if_neg hb] at h
    split
    · rfl
    · next hp => rw [hp] at h; cases h

/-- C44 (partial: every operation but `host`). An operation that raises, whatever the exception,
leaves the object as it was. -/
theorem C44_failed_assignment_partial (env : Env) (o : URLObj) (op : Op) (hop : ∀ v, op ≠ .host v) (err : Err)
    (h : (applyOp env o op).1 = .error err) : (applyOp env o op).2 = o := by
  cases op with
  | hash v =>
    by_cases hv : v = []
    · subst hv; cases h
    · have e1 : applyOp env o (.hash v) = _ := setHash_eq env o v hv
      rw [e1] at h; cases h
  | host v => exact absurd rfl (hop v)
  | hostname v =>
    have e0 : applyOp env o (.hostname v) = setHostname env o v := rfl
    rw [e0] at h ⊢
    cases ho : o.url.hasOpaquePath with
    | true => unfold setHostname; rw [ho]; rfl
    | false =>
      rw [setHostname_eq env o v ho] at h ⊢
      have : (hostSetOut env.quiet .hostname o.url (removeTabNewline v)).2 = o.url := by
        dsimp only at h
        unfold hostSetOut at h ⊢
        split
        · next hf =>
          rw [if_pos hf] at h
          exact fileHostOut_fail h
        · next hf =>
          rw [if_neg hf] at h
          unfold hostOut at h ⊢
          split
          · next heq => rw [heq] at h; exact hostEndOut_fail h
          · next c cs heq =>
            rw [heq] at h
            dsimp only at h
            split
            · next hc =>
              rw [if_pos hc] at h
              split
              · rfl
              · next hb => rw [if_neg hb, if_pos rfl] at h; cases h
            · next hc => rw [if_neg hc] at h; exact hostEndOut_fail h
      dsimp only
      rw [this]
  | href v =>
    have e0 : applyOp env o (.href v) = setHref env o v := rfl
    rw [e0] at h ⊢
    unfold setHref at h ⊢
    split
    · next hr => rw [hr] at h; cases h
    · rfl
  | password v =>
    have e0 : applyOp env o (.password v) = setPassword o v := rfl
    rw [e0] at h
    unfold setPassword at h
    split at h <;> cases h
  | pathname v =>
    have e0 : applyOp env o (.pathname v) = setPathname env o v := rfl
    rw [e0] at h ⊢
    cases ho : o.url.hasOpaquePath with
    | true => unfold setPathname; rw [ho]; rfl
    | false => rw [setPathname_eq env o v ho] at h; cases h
  | port v =>
    have e0 : applyOp env o (.port v) = setPort env o v := rfl
    rw [e0] at h ⊢
    cases hu : o.url.cannotHaveUPP with
    | true => unfold setPort; rw [hu]; rfl
    | false =>
      by_cases hv : v = []
      · subst hv
        unfold setPort at h
        rw [hu] at h
        cases h
      · rw [setPort_eq env o v hu hv] at h ⊢
        dsimp only at h ⊢
        rw [portOut_fail h]
  | protocol v =>
    have e0 : applyOp env o (.protocol v) = setProtocol env o v := rfl
    rw [e0] at h ⊢
    rw [setProtocol_eq] at h ⊢
    split
    · rfl
    · next hr => rw [hr] at h; cases h
  | search v =>
    by_cases hv : v = []
    · subst hv; cases h
    · have e1 : applyOp env o (.search v) = _ := setSearch_eq env o v hv
      rw [e1] at h; cases h
  | username v =>
    have e0 : applyOp env o (.username v) = setUsername o v := rfl
    rw [e0] at h
    unfold setUsername at h
    split at h <;> cases h
  | spAppend n v => cases h
  | spDelete n v => cases h
  | spSet n v => cases h
  | spSort => cases h

/-- C44, what a failing `host` can do: the object is as it was, or only its host is changed, and then
the assigned text contains a ":". -/
theorem C44_failed_host (env : Env) (o : URLObj) (v : Str) (err : Err)
    (h : (applyOp env o (.host v)).1 = .error err) :
    (applyOp env o (.host v)).2 = o ∨
      (c!":" ∈ v ∧ ∃ x, (applyOp env o (.host v)).2 = { o with url := { o.url with host := some x } }) := by
  have e0 : applyOp env o (.host v) = setHost env o v := rfl
  rw [e0] at h ⊢
  cases ho : o.url.hasOpaquePath with
  | true => left; unfold setHost; rw [ho]; rfl
  | false =>
    rw [setHost_eq env o v ho] at h ⊢
    dsimp only at h ⊢
    have : (hostSetOut env.quiet .host o.url (removeTabNewline v)).2 = o.url ∨
        (c!":" ∈ v ∧ ∃ x, (hostSetOut env.quiet .host o.url (removeTabNewline v)).2 = { o.url with host := some x }) := by
      unfold hostSetOut at h ⊢
      split
      · next hf => rw [if_pos hf] at h; exact .inl (fileHostOut_fail h)
      · next hf =>
        rw [if_neg hf] at h
        unfold hostOut at h ⊢
        split
        · next heq => rw [heq] at h; exact .inl (hostEndOut_fail h)
        · next c cs heq =>
          rw [heq] at h
          dsimp only at h
          split
          · next hc =>
            rw [if_pos hc] at h
            split
            · exact .inl rfl
            · next hb =>
              rw [if_neg hb, if_neg (by decide)] at h
              rw [if_neg (by decide)]
              split
              · exact .inl rfl
              · next x hx =>
                rw [hx] at h
                right
                refine ⟨?_, x, portOut_fail h⟩
                have hm : c ∈ removeTabNewline v := by
                  rw [← hostSpan_append o.url.isSpecial false (removeTabNewline v), heq]
                  simp
                rw [hc] at hm
                exact (List.mem_filter.1 hm).1
          · next hc => rw [if_neg hc] at h; exact .inl (hostEndOut_fail h)
    rcases this with h1 | ⟨h1, x, h2⟩
    · left; rw [h1]
    · right; refine ⟨h1, x, ?_⟩; rw [h2]

example : (applyOp exEnv exObj (.hostname u!"a b")) = (.error .hostParse, exObj) := by decide +kernel
example : (applyOp exEnv exObj (.port u!"99999")) = (.error .urlParse, exObj) := by decide +kernel

end Urlstd.Props
