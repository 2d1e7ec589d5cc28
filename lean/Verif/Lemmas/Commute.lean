/-
What an operation on a `URL` reads and writes, and operations that commute.
-/
import Verif.Lemmas.Again
import Verif.Lemmas.History
import Verif.Spec.Commute

set_option linter.unusedSimpArgs false
set_option linter.unusedVariables false

namespace Urlstd

open Spec (Facet reads writes independent)

theorem Facet.refl (f : Facet) (o : URLObj) : f.Same o o := by cases f <;> rfl

theorem Facet.symm {f : Facet} {o o' : URLObj} (h : f.Same o o') : f.Same o' o := by cases f <;> exact Eq.symm h

theorem Facet.trans {f : Facet} {o o' o'' : URLObj} (h : f.Same o o') (h' : f.Same o' o'') : f.Same o o'' := by
  cases f <;> exact Eq.trans h h'

theorem Facet.ext {o o' : URLObj} (h : ∀ f : Facet, f.Same o o') : o = o' := by
  obtain ⟨⟨a, b, c, d, e, f, g, i⟩, p⟩ := o
  obtain ⟨⟨a', b', c', d', e', f', g', i'⟩, p'⟩ := o'
  cases h .scheme; cases h .username; cases h .password; cases h .host; cases h .port; cases h .path; cases h .query
  cases h .fragment; cases h .params
  rfl

/-- the predicate implies that the path is a list -/
def Listed (P : URLObj → Prop) : Prop := ∀ o, P o → o.url.hasOpaquePath = false

theorem Listed.path {P : URLObj → Prop} (hP : Listed P) {o : URLObj} (h : P o) : ∃ l, o.url.path = .list l := by
  have := hP o h
  unfold Rec.hasOpaquePath at this
  split at this
  · cases this
  · next l hl => exact ⟨l, hl⟩

/-- what has to be shown of an operation `f` that reads `R` and writes `W` -/
structure Local (P : URLObj → Prop) (R W : List Facet) (f : URLObj → SetOut) : Prop where
  frame : ∀ o, P o → ∀ c, c ∉ W → c.Same o (f o).2
  outcome : ∀ o o', P o → P o' → (∀ c ∈ R, Facet.Same o o' c) → (f o).1 = (f o').1
  value : ∀ o o', P o → P o' → (∀ c ∈ R, Facet.Same o o' c) → (∀ c ∈ W, Facet.Same o o' c) →
    ∀ c ∈ W, c.Same (f o).2 (f o').2

theorem Local.commute {P : URLObj → Prop} {R W R' W' : List Facet} {f g : URLObj → SetOut} (hf : Local P R W f)
    (hg : Local P R' W' g) (h1 : ∀ c ∈ W, c ∉ R' ∧ c ∉ W') (h2 : ∀ c ∈ W', c ∉ R) (o : URLObj) (ho : P o)
    (hfo : P (f o).2) (hgo : P (g o).2) :
    (g (f o).2).1 = (g o).1 ∧ (f (g o).2).1 = (f o).1 ∧ (g (f o).2).2 = (f (g o).2).2 := by
  have r1 : ∀ c ∈ R', Facet.Same (f o).2 o c := fun c hc =>
    Facet.symm (hf.frame o ho c fun hw => (h1 c hw).1 hc)
  have r2 : ∀ c ∈ R, Facet.Same (g o).2 o c := fun c hc =>
    Facet.symm (hg.frame o ho c fun hw => h2 c hw hc)
  refine ⟨hg.outcome _ _ hfo ho r1, hf.outcome _ _ hgo ho r2, Facet.ext fun c => ?_⟩
  by_cases hc : c ∈ W
  · have hc' := (h1 c hc).2
    have a : c.Same (f (g o).2).2 (f o).2 := hf.value _ _ hgo ho r2 (fun x hx => Facet.symm (hg.frame o ho x (h1 x hx).2)) c hc
    exact Facet.trans (Facet.symm (hg.frame _ hfo c hc')) (Facet.symm a)
  · by_cases hc' : c ∈ W'
    · have a : c.Same (g (f o).2).2 (g o).2 := hg.value _ _ hfo ho r1 (fun x hx => Facet.symm (hf.frame o ho x fun hw => (h1 x hw).2 hx)) c hc'
      exact Facet.trans a (hf.frame _ hgo c hc)
    · exact Facet.trans (Facet.symm (hg.frame _ hfo c hc'))
        (Facet.trans (Facet.symm (hf.frame o ho c hc)) (Facet.trans (hg.frame o ho c hc') (hf.frame _ hgo c hc)))

/-- an operation that assigns a value computed from what it reads -/
theorem Local.assign {P : URLObj → Prop} {R W : List Facet} {f : URLObj → SetOut} (e : URLObj → Except Err Unit)
    (k : URLObj → URLObj) (hk : ∀ o, P o → f o = (e o, k o)) (h1 : ∀ o, P o → ∀ c, c ∉ W → c.Same o (k o))
    (h2 : ∀ o o', P o → P o' → (∀ c ∈ R, Facet.Same o o' c) → e o = e o' ∧ ((∀ c ∈ W, Facet.Same o o' c) → ∀ c ∈ W, c.Same (k o) (k o'))) :
    Local P R W f where
  frame o ho := by rw [hk o ho]; exact h1 o ho
  outcome o o' ho ho' h := by rw [hk o ho, hk o' ho']; exact (h2 o o' ho ho' h).1
  value o o' ho ho' h := by rw [hk o ho, hk o' ho']; exact (h2 o o' ho ho' h).2

theorem hash_local (env : Env) {P : URLObj → Prop} (hP : Listed P) (v : Str) : Local P [] [.fragment] (fun o => setHash env o v) := by
  refine Local.assign (fun _ => .ok ()) (fun o => { o with url := { o.url with
    fragment := if v = [] then none else some (utf8PercentEncode (removeTabNewline (dropLead c!"#" v)) safeFragment) } }) ?_ ?_ ?_
  · intro o ho
    obtain ⟨l, hl⟩ := hP.path ho
    by_cases hv : v = []
    · subst hv
      show ((.ok (), { o with url := potentiallyRstrip { o.url with fragment := none } }) : SetOut) = _
      rw [rstrip_list (u := { o.url with fragment := none }) hl, if_pos rfl]
    · rw [setHash_eq env o v hv, if_neg hv]
  · intro o _ c hc
    cases c <;> first | rfl | simp at hc
  · intro o o' _ _ _
    refine ⟨rfl, fun _ c hc => ?_⟩
    rw [List.mem_singleton] at hc
    subst hc
    rfl

theorem encodeQuery_special {u w : Rec} (h : u.isSpecial = w.isSpecial) (t : Str) : encodeQuery .utf8 u t = encodeQuery .utf8 w t := by
  unfold encodeQuery
  rw [h, ite_self, ite_self]

theorem search_local (env : Env) {P : URLObj → Prop} (hP : Listed P) (v : Str) :
    Local P [.special] [.query, .params] (fun o => setSearch env o v) := by
  refine Local.assign (fun _ => .ok ()) (fun o => ⟨{ o.url with
    query := if v = [] then none else some (encodeQuery .utf8 o.url (removeTabNewline (dropLead c!"?" v))) },
    spOfQuery (if v = [] then none else some (encodeQuery .utf8 o.url (removeTabNewline (dropLead c!"?" v))))⟩) ?_ ?_ ?_
  · intro o ho
    obtain ⟨l, hl⟩ := hP.path ho
    by_cases hv : v = []
    · subst hv
      show ((.ok (), ⟨potentiallyRstrip { o.url with query := none }, spOfQuery (potentiallyRstrip { o.url with query := none }).query⟩) : SetOut) = _
      rw [rstrip_list (u := { o.url with query := none }) hl, if_pos rfl]
    · rw [setSearch_eq env o v hv]
      simp only [if_neg hv]
  · intro o _ c hc
    cases c <;> first | rfl | simp at hc
  · intro o o' _ _ h
    have hs : o.url.isSpecial = o'.url.isSpecial := h .special (by simp)
    refine ⟨rfl, fun _ c hc => ?_⟩
    simp only [List.mem_cons, List.not_mem_nil, or_false] at hc
    rcases hc with rfl | rfl
    · show (if v = [] then none else some _) = (if v = [] then none else some _)
      rw [encodeQuery_special hs]
    · show spOfQuery _ = spOfQuery _
      rw [encodeQuery_special hs]

theorem params_local {P : URLObj → Prop} (hP : Listed P) (k : Params → Params) :
    Local P [] [.query, .params] (fun o => spMutate o (k o.params)) := by
  have e : ∀ o, P o → spMutate o (k o.params) =
      (.ok (), ⟨{ o.url with query := if spToStr (k o.params) = [] then none else some (spToStr (k o.params)) }, k o.params⟩) := by
    intro o ho
    obtain ⟨l, hl⟩ := hP.path ho
    unfold spMutate
    by_cases h : spToStr (k o.params) = []
    · rw [spUpdate_nil h, rstrip_list (u := { o.url with query := none }) hl, if_pos h]
    · rw [spUpdate_cons h, if_neg h]
  refine Local.assign (fun _ => .ok ()) _ e ?_ ?_
  · intro o ho c hc
    cases c <;> first | rfl | simp at hc
  · intro o o' ho ho' _
    refine ⟨rfl, fun hw c hc => ?_⟩
    have hp : o.params = o'.params := hw .params (by simp)
    simp only [List.mem_cons, List.not_mem_nil, or_false] at hc
    rcases hc with rfl | rfl
    · show (if spToStr (k o.params) = [] then none else some _) = (if spToStr (k o'.params) = [] then none else some _)
      rw [hp]
    · show k o.params = k o'.params
      rw [hp]

theorem pathname_local (env : Env) {P : URLObj → Prop} (hP : Listed P) (v : Str) :
    Local P [.scheme, .null] [.path] (fun o => setPathname env o v) := by
  refine Local.assign (fun _ => .ok ()) _ (fun o ho => setPathname_eq env o v (hP o ho)) ?_ ?_
  · intro o ho c hc
    cases c <;> first | rfl | exact hP o ho | simp at hc
  · intro o o' ho ho' h
    have hs : o.url.scheme = o'.url.scheme := h .scheme (by simp)
    have hs' : o.url.isSpecial = o'.url.isSpecial := by unfold Rec.isSpecial; rw [hs]
    have hn : o.url.host.isNone = o'.url.host.isNone := h .null (by simp)
    refine ⟨rfl, fun _ c hc => ?_⟩
    rw [List.mem_singleton] at hc
    subst hc
    show Path.list _ = Path.list _
    unfold pathnameSegs
    rw [hs, hs', hn]

theorem upp_same {o o' : URLObj} (h1 : Facet.Same o o' .scheme) (h2 : Facet.Same o o' .bare) :
    o.url.cannotHaveUPP = o'.url.cannotHaveUPP := by
  unfold Rec.cannotHaveUPP
  rw [show o.url.scheme = o'.url.scheme from h1, show o.url.hostNoneOrEmpty = o'.url.hostNoneOrEmpty from h2]

theorem username_local (P : URLObj → Prop) (v : Str) : Local P [.scheme, .bare] [.username] (fun o => setUsername o v) := by
  refine ⟨?_, ?_, ?_⟩
  · intro o ho c hc
    unfold setUsername
    split
    · exact Facet.refl _ _
    · cases c <;> first | rfl | simp at hc
  · intro o o' ho ho' h
    unfold setUsername
    split <;> split <;> rfl
  · intro o o' ho ho' h hw c hc
    have hu := upp_same (h .scheme (by simp)) (h .bare (by simp))
    rw [List.mem_singleton] at hc
    subst hc
    unfold setUsername
    rw [hu]
    split
    · exact hw _ (by simp)
    · rfl

theorem password_local (P : URLObj → Prop) (v : Str) : Local P [.scheme, .bare] [.password] (fun o => setPassword o v) := by
  refine ⟨?_, ?_, ?_⟩
  · intro o ho c hc
    unfold setPassword
    split
    · exact Facet.refl _ _
    · cases c <;> first | rfl | simp at hc
  · intro o o' ho ho' h
    unfold setPassword
    split <;> split <;> rfl
  · intro o o' ho ho' h hw c hc
    have hu := upp_same (h .scheme (by simp)) (h .bare (by simp))
    rw [List.mem_singleton] at hc
    subst hc
    unfold setPassword
    rw [hu]
    split
    · exact hw _ (by simp)
    · rfl

/-- `portOut` changes the port only, and looks at the scheme only -/
theorem portOut_local (env : Env) (u u' : Rec) (d : Str) (hs : u.scheme = u'.scheme) :
    (portOut env u d).1 = (portOut env u' d).1 ∧
      ((portOut env u d = ((portOut env u d).1, u) ∧ portOut env u' d = ((portOut env u d).1, u')) ∨
        ∃ p, portOut env u d = (.ok (), { u with port := p }) ∧ portOut env u' d = (.ok (), { u' with port := p })) := by
  rcases portOut_cases env u d with h | ⟨p, h⟩
  · refine ⟨by rw [h u' hs.symm], .inl ⟨by conv_lhs => rw [h u rfl], h u' hs.symm⟩⟩
  · refine ⟨by rw [h u rfl, h u' hs.symm], .inr ⟨p, h u rfl, h u' hs.symm⟩⟩

theorem port_local (env : Env) (P : URLObj → Prop) (v : Str) : Local P [.scheme, .bare] [.port] (fun o => setPort env o v) := by
  have key : ∀ o o' : URLObj, o.url.scheme = o'.url.scheme → o.url.cannotHaveUPP = o'.url.cannotHaveUPP →
      (setPort env o v = ((setPort env o v).1, o) ∧ setPort env o' v = ((setPort env o v).1, o')) ∨
      ∃ p, setPort env o v = (.ok (), { o with url := { o.url with port := p } }) ∧
        setPort env o' v = (.ok (), { o' with url := { o'.url with port := p } }) := by
    intro o o' hs hu
    cases hc : o.url.cannotHaveUPP with
    | true =>
      left
      rw [hc] at hu
      unfold setPort
      rw [hc, ← hu]
      exact ⟨rfl, rfl⟩
    | false =>
      rw [hc] at hu
      by_cases hv : v = []
      · subst hv
        right
        refine ⟨none, ?_, ?_⟩
        · unfold setPort; rw [hc]; rfl
        · unfold setPort; rw [← hu]; rfl
      · rw [setPort_eq env o v hc hv, setPort_eq env o' v hu.symm hv]
        rcases (portOut_local env.quiet o.url o'.url ((removeTabNewline v).takeWhile isDigit) hs).2 with ⟨h1, h2⟩ | ⟨p, h1, h2⟩
        · left; rw [h1, h2]; exact ⟨rfl, rfl⟩
        · right; exact ⟨p, by rw [h1], by rw [h2]⟩
  refine ⟨?_, ?_, ?_⟩
  · intro o ho c hc
    rcases key o o rfl rfl with ⟨h, _⟩ | ⟨p, h, _⟩
    · rw [h]; exact Facet.refl _ _
    · rw [h]; cases c <;> first | rfl | simp at hc
  · intro o o' ho ho' h
    rcases key o o' (h .scheme (by simp)) (upp_same (h .scheme (by simp)) (h .bare (by simp))) with ⟨h1, h2⟩ | ⟨p, h1, h2⟩
    · rw [h2]
    · rw [h1, h2]
  · intro o o' ho ho' h hw c hc
    rw [List.mem_singleton] at hc
    subst hc
    rcases key o o' (h .scheme (by simp)) (upp_same (h .scheme (by simp)) (h .bare (by simp))) with ⟨h1, h2⟩ | ⟨p, h1, h2⟩
    · rw [h1, h2]; exact hw _ (by simp)
    · rw [h1, h2]; rfl

theorem overrideScheme_cases (u u' : Rec) (sc : Str) (h1 : u.scheme = u'.scheme) (h2 : u.username = u'.username)
    (h3 : u.password = u'.password) (h4 : u.port = u'.port) (h5 : u.hostNoneOrEmpty = u'.hostNoneOrEmpty) :
    (overrideScheme u sc = u ∧ overrideScheme u' sc = u') ∨
      ∃ p, overrideScheme u sc = { u with scheme := sc, port := p } ∧
        overrideScheme u' sc = { u' with scheme := sc, port := p } ∧ isSpecialScheme sc = u.isSpecial := by
  have hr : schemeRefused u sc = schemeRefused u' sc := by
    unfold schemeRefused Rec.includesCredentials Rec.portTruthy Rec.isSpecial
    rw [h1, h2, h3, h4, h5]
  unfold overrideScheme
  rw [← hr]
  cases hc : schemeRefused u sc with
  | true => exact .inl ⟨rfl, rfl⟩
  | false =>
    right
    have hsp : isSpecialScheme sc = u.isSpecial := by
      unfold schemeRefused at hc
      simp only [Bool.or_eq_false_iff] at hc
      have := hc.1.1
      cases h : isSpecialScheme sc <;> cases h' : u.isSpecial <;> rw [h, h'] at this <;> simp at this ⊢
    refine ⟨match u.port with | some p => if p != 0 && isDefaultPort sc p then none else some p | none => none, ?_, ?_, hsp⟩
    · dsimp only
      rw [if_neg (by simp)]
      cases hp : u.port with
      | none => dsimp only
      | some p =>
        dsimp only
        split
        · rfl
        · rw [← hp]
    · dsimp only
      rw [if_neg (by simp), h4]
      cases hp : u'.port with
      | none => dsimp only
      | some p =>
        dsimp only
        split
        · rfl
        · rw [← hp]

theorem protocol_local (env : Env) (P : URLObj → Prop) (v : Str) :
    Local P [.scheme, .username, .password, .port, .bare] [.scheme, .port] (fun o => setProtocol env o v) := by
  cases ht : takeScheme (removeTabNewline (v ++ u!":")) with
  | none =>
    have e : ∀ o, setProtocol env o v = (.error .urlParse, o) := fun o => by rw [setProtocol_eq, ht]
    exact Local.assign (fun _ => .error .urlParse) id (fun o _ => e o) (fun o _ c _ => Facet.refl _ _)
      fun o o' _ _ _ => ⟨rfl, fun h => h⟩
  | some x =>
    have e : ∀ o, setProtocol env o v = (.ok (), { o with url := overrideScheme o.url x.1 }) := fun o => by rw [setProtocol_eq, ht]
    refine Local.assign (fun _ => .ok ()) _ (fun o _ => e o) ?_ ?_
    · intro o _ c hc
      rcases overrideScheme_cases o.url o.url x.1 rfl rfl rfl rfl rfl with ⟨h, _⟩ | ⟨p, h, _, hs⟩
      · rw [h]; exact Facet.refl _ _
      · rw [h]
        cases c <;> first | rfl | (exact hs.symm) | simp at hc
    · intro o o' _ _ h
      refine ⟨rfl, fun hw c hc => ?_⟩
      rcases overrideScheme_cases o.url o'.url x.1 (h .scheme (by simp)) (h .username (by simp)) (h .password (by simp))
        (h .port (by simp)) (h .bare (by simp)) with ⟨h, h'⟩ | ⟨p, h, h', _⟩
      · rw [h, h']; exact hw c hc
      · rw [h, h']
        simp only [List.mem_cons, List.not_mem_nil, or_false] at hc
        rcases hc with rfl | rfl <;> rfl

/-- what `hostSetOut` does to two records: the same outcome, and either nothing or the same assignments -/
def SameHostSet (r r' : Except Err Unit × Rec) (u u' : Rec) (noPort : Prop) : Prop :=
  r.1 = r'.1 ∧ ((r.2 = u ∧ r'.2 = u') ∨ (∃ h, r.2 = { u with host := some h } ∧ r'.2 = { u' with host := some h }) ∨
    (¬ noPort ∧ ∃ h p, r.2 = { u with host := some h, port := p } ∧ r'.2 = { u' with host := some h, port := p }))

theorem hostEndOut_local (env : Env) (u u' : Rec) (b : Str) (np : Prop) (hs : u.isSpecial = u'.isSpecial)
    (hc : u.isSpecial = true ∨ (u.includesCredentials || u.portTruthy) = (u'.includesCredentials || u'.portTruthy)) :
    SameHostSet (hostEndOut env u b) (hostEndOut env u' b) u u' np := by
  unfold hostEndOut
  rw [← hs]
  by_cases h1 : (u.isSpecial && b.isEmpty) = true
  · rw [if_pos h1, if_pos h1]; exact ⟨rfl, .inl ⟨rfl, rfl⟩⟩
  · rw [if_neg h1, if_neg h1]
    have hb : (b.isEmpty && (u.includesCredentials || u.portTruthy)) = (b.isEmpty && (u'.includesCredentials || u'.portTruthy)) := by
      rcases hc with hc | hc
      · rw [hc, Bool.true_and] at h1
        rw [Bool.not_eq_true] at h1
        rw [h1, Bool.false_and, Bool.false_and]
      · rw [hc]
    rw [← hb]
    split
    · exact ⟨rfl, .inl ⟨rfl, rfl⟩⟩
    · split
      · exact ⟨rfl, .inl ⟨rfl, rfl⟩⟩
      · exact ⟨rfl, .inr (.inl ⟨_, rfl, rfl⟩)⟩

theorem hostSetOut_local (env : Env) (ov : PState) (u u' : Rec) (t : Str) (hs : u.scheme = u'.scheme)
    (hc : u.isSpecial = true ∨ (u.includesCredentials || u.portTruthy) = (u'.includesCredentials || u'.portTruthy)) :
    SameHostSet (hostSetOut env ov u t) (hostSetOut env ov u' t) u u' (ov = .hostname) := by
  have hs' : u.isSpecial = u'.isSpecial := by unfold Rec.isSpecial; rw [hs]
  unfold hostSetOut
  rw [← hs, ← hs']
  split
  · unfold fileHostOut
    rw [← hs']
    split
    · exact ⟨rfl, .inr (.inl ⟨_, rfl, rfl⟩)⟩
    · split
      · exact ⟨rfl, .inl ⟨rfl, rfl⟩⟩
      · exact ⟨rfl, .inr (.inl ⟨_, rfl, rfl⟩)⟩
  · unfold hostOut
    rw [← hs']
    split
    · exact hostEndOut_local env u u' _ _ hs' hc
    · split
      · split
        · exact ⟨rfl, .inl ⟨rfl, rfl⟩⟩
        · split
          · exact ⟨rfl, .inl ⟨rfl, rfl⟩⟩
          · next hov =>
            split
            · exact ⟨rfl, .inl ⟨rfl, rfl⟩⟩
            · next h _ =>
              obtain ⟨h1, h2⟩ := portOut_local env { u with host := some h } { u' with host := some h }
                (List.takeWhile isDigit ‹_›) hs
              refine ⟨h1, ?_⟩
              rcases h2 with ⟨a, b⟩ | ⟨p, a, b⟩
              · right; left; exact ⟨h, by rw [a], by rw [b]⟩
              · right; right; exact ⟨hov, h, p, by rw [a], by rw [b]⟩
      · exact hostEndOut_local env u u' _ _ hs' hc

/-- the credentials and the port have the same influence on the host setters -/
theorem cred_same {o o' : URLObj} (h1 : Facet.Same o o' .username) (h2 : Facet.Same o o' .password) (h3 : Facet.Same o o' .port) :
    (o.url.includesCredentials || o.url.portTruthy) = (o'.url.includesCredentials || o'.url.portTruthy) := by
  unfold Rec.includesCredentials Rec.portTruthy
  rw [show o.url.username = o'.url.username from h1, show o.url.password = o'.url.password from h2,
    show o.url.port = o'.url.port from h3]

/-- `host` and `hostname`; `W` are the facets that are not known to be unaffected -/
theorem hostSet_local (env : Env) (ov : PState) (v : Str) {P : URLObj → Prop} (hP : Listed P) {R W : List Facet}
    (hR : .scheme ∈ R) (hc : (∀ o, P o → o.url.isSpecial = true) ∨ (.username ∈ R ∧ .password ∈ R ∧ .port ∈ R))
    (hW : .host ∈ W ∧ (ov ≠ .hostname → .port ∈ W))
    (hWo : ∀ c ∈ W, c = .host ∨ c = .port ∨ c = .bare ∨ c = .null)
    (hb : .bare ∉ W → ∀ o, P o → o.url.hostNoneOrEmpty = (hostSetOut env.quiet ov o.url (removeTabNewline v)).2.hostNoneOrEmpty)
    (hn : .null ∉ W → ∀ o, P o → o.url.host ≠ none)
    (f : URLObj → SetOut)
    (hf : ∀ o, P o → f o = ((hostSetOut env.quiet ov o.url (removeTabNewline v)).1,
      { o with url := (hostSetOut env.quiet ov o.url (removeTabNewline v)).2 })) : Local P R W f := by
  refine Local.assign _ _ hf ?_ ?_
  · intro o ho c hc
    by_cases hcb : c = .bare
    · subst hcb; exact hb hc o ho
    rcases (hostSetOut_local env.quiet ov o.url o.url (removeTabNewline v) rfl (.inr rfl)).2 with ⟨h, _⟩ | ⟨h, e, _⟩ | ⟨hov, h, p, e, _⟩
    · rw [h]; exact Facet.refl _ _
    · rw [e]
      cases c with
      | host => exact absurd hW.1 hc
      | bare => exact absurd rfl hcb
      | null =>
        have := hn hc o ho
        show o.url.host.isNone = false
        rw [Option.isNone_eq_false_iff]
        exact Option.isSome_iff_ne_none.2 this
      | _ => rfl
    · rw [e]
      cases c with
      | host => exact absurd hW.1 hc
      | port => exact absurd (hW.2 hov) hc
      | bare => exact absurd rfl hcb
      | null =>
        have := hn hc o ho
        show o.url.host.isNone = false
        rw [Option.isNone_eq_false_iff]
        exact Option.isSome_iff_ne_none.2 this
      | _ => rfl
  · intro o o' ho ho' h
    obtain ⟨h1, h2⟩ := hostSetOut_local env.quiet ov o.url o'.url (removeTabNewline v) (h .scheme hR)
      (hc.imp (fun hs => hs o ho) fun hm => cred_same (h _ hm.1) (h _ hm.2.1) (h _ hm.2.2))
    refine ⟨h1, fun hw c hcm => ?_⟩
    rcases h2 with ⟨e, e'⟩ | ⟨x, e, e'⟩ | ⟨_, x, p, e, e'⟩
    · rw [e, e']; exact hw c hcm
    · rw [e, e']
      rcases hWo c hcm with rfl | rfl | rfl | rfl
      · rfl
      · exact hw .port hcm
      · rfl
      · rfl
    · rw [e, e']
      rcases hWo c hcm with rfl | rfl | rfl | rfl <;> rfl

/-! ### Opaque paths -/

/-- the predicate implies that the path is opaque -/
def IsOpaque (P : URLObj → Prop) : Prop := ∀ o, P o → o.url.hasOpaquePath = true

theorem nothing_local {P : URLObj → Prop} (f : URLObj → SetOut) (hf : ∀ o, P o → f o = (.ok (), o)) : Local P [.opq] [] f :=
  Local.assign (fun _ => .ok ()) id hf (fun o _ c _ => Facet.refl _ _) fun _ _ _ _ _ => ⟨rfl, fun h => h⟩

theorem rstrip_same {u u' : Rec} (hp : u.path = u'.path) (hf : u.fragment = u'.fragment) (hq : u.query = u'.query) :
    (potentiallyRstrip u).path = (potentiallyRstrip u').path := by
  by_cases h : ∀ s, u.path = .opaque s → u.fragment = none → u.query ≠ none
  · rw [rstrip_other h, rstrip_other (by rw [← hp, ← hf, ← hq]; exact h), hp]
  · simp only [not_forall] at h
    obtain ⟨s, h1, h2, h3⟩ := h
    have h3 : u.query = none := by simpa using h3
    rw [rstrip_opaque h1 h2 h3, rstrip_opaque (hp ▸ h1) (hf ▸ h2) (hq ▸ h3)]

/-- a facet other than the path, and not written besides -/
theorem rstrip_frame {o : URLObj} {u : Rec} {l : Params} {c : Facet} (hc : c ≠ .path) (h : c.Same o ⟨u, l⟩) :
    c.Same o ⟨potentiallyRstrip u, l⟩ := by
  have := rstrip_fields u
  have ha := (rstrip_agree u).1
  have hh : u.host = (potentiallyRstrip u).host := ha .host (by simp)
  have hs : u.scheme = (potentiallyRstrip u).scheme := ha .scheme (by simp)
  cases c with
  | scheme => exact Eq.trans h hs
  | username => exact Eq.trans h (ha .username (by simp))
  | password => exact Eq.trans h (ha .password (by simp))
  | host => exact Eq.trans h hh
  | port => exact Eq.trans h (ha .port (by simp))
  | path => exact absurd rfl hc
  | query => exact Eq.trans h this.2.symm
  | fragment => exact Eq.trans h this.1.symm
  | params => exact h
  | special =>
    refine Eq.trans h ?_
    show u.isSpecial = (potentiallyRstrip u).isSpecial
    unfold Rec.isSpecial
    rw [hs]
  | bare =>
    refine Eq.trans h ?_
    show u.hostNoneOrEmpty = (potentiallyRstrip u).hostNoneOrEmpty
    unfold Rec.hostNoneOrEmpty
    rw [hh]
  | null =>
    refine Eq.trans h ?_
    show u.host.isNone = (potentiallyRstrip u).host.isNone
    rw [hh]
  | opq =>
    refine Eq.trans h ?_
    show u.hasOpaquePath = (potentiallyRstrip u).hasOpaquePath
    by_cases h : ∀ s, u.path = .opaque s → u.fragment = none → u.query ≠ none
    · rw [rstrip_other h]
    · simp only [not_forall] at h
      obtain ⟨s, h1, h2, h3⟩ := h
      rw [rstrip_opaque h1 h2 (by simpa using h3)]
      unfold Rec.hasOpaquePath
      rw [h1]

theorem hash_opaque (env : Env) (P : URLObj → Prop) (v : Str) : Local P [.query] [.fragment, .path] (fun o => setHash env o v) := by
  by_cases hv : v = []
  · subst hv
    refine Local.assign (fun _ => .ok ()) (fun o => ⟨potentiallyRstrip { o.url with fragment := none }, o.params⟩) (fun o _ => rfl) ?_ ?_
    · intro o _ c hc
      refine rstrip_frame (fun h => hc (by rw [h]; simp)) ?_
      cases c <;> first | rfl | simp at hc
    · intro o o' _ _ h
      refine ⟨rfl, fun hw c hc => ?_⟩
      simp only [List.mem_cons, List.not_mem_nil, or_false] at hc
      rcases hc with rfl | rfl
      · show (potentiallyRstrip _).fragment = (potentiallyRstrip _).fragment
        rw [(rstrip_fields _).1, (rstrip_fields _).1]
      · exact rstrip_same (show o.url.path = o'.url.path from hw .path (by simp)) rfl (show o.url.query = o'.url.query from h .query (by simp))
  · refine Local.assign (fun _ => .ok ()) _ (fun o _ => setHash_eq env o v hv) ?_ ?_
    · intro o _ c hc
      cases c <;> first | rfl | simp at hc
    · intro o o' _ _ h
      refine ⟨rfl, fun hw c hc => ?_⟩
      simp only [List.mem_cons, List.not_mem_nil, or_false] at hc
      rcases hc with rfl | rfl
      · rfl
      · exact (show o.url.path = o'.url.path from hw .path (by simp))

/-- removing the query -/
theorem noQuery_opaque (P : URLObj → Prop) (l l' : Params) {o o' : URLObj}
    (h : ∀ c ∈ ([.fragment] : List Facet), Facet.Same o o' c) (hw : ∀ c ∈ ([.query, .params, .path] : List Facet), Facet.Same o o' c)
    (hl : l = l') : ∀ c ∈ ([.query, .params, .path] : List Facet),
      c.Same ⟨potentiallyRstrip { o.url with query := none }, l⟩ ⟨potentiallyRstrip { o'.url with query := none }, l'⟩ := by
  intro c hc
  simp only [List.mem_cons, List.not_mem_nil, or_false] at hc
  rcases hc with rfl | rfl | rfl
  · show (potentiallyRstrip _).query = (potentiallyRstrip _).query
    rw [(rstrip_fields _).2, (rstrip_fields _).2]
  · exact hl
  · exact rstrip_same (show o.url.path = o'.url.path from hw .path (by simp))
      (show o.url.fragment = o'.url.fragment from h .fragment (by simp)) rfl

theorem search_opaque (env : Env) (P : URLObj → Prop) (v : Str) :
    Local P [.special, .fragment] [.query, .params, .path] (fun o => setSearch env o v) := by
  by_cases hv : v = []
  · subst hv
    refine Local.assign (fun _ => .ok ()) (fun o => ⟨potentiallyRstrip { o.url with query := none },
      spOfQuery (potentiallyRstrip { o.url with query := none }).query⟩) (fun o _ => rfl) ?_ ?_
    · intro o _ c hc
      refine rstrip_frame (fun h => hc (by rw [h]; simp)) ?_
      cases c <;> first | rfl | simp at hc
    · intro o o' _ _ h
      refine ⟨rfl, fun hw => noQuery_opaque P _ _ (fun c hc => h c (by simp at hc ⊢; exact .inr hc)) hw ?_⟩
      rw [(rstrip_fields _).2, (rstrip_fields _).2]
  · refine Local.assign (fun _ => .ok ()) _ (fun o _ => setSearch_eq env o v hv) ?_ ?_
    · intro o _ c hc
      cases c <;> first | rfl | simp at hc
    · intro o o' _ _ h
      have hs : o.url.isSpecial = o'.url.isSpecial := h .special (by simp)
      refine ⟨rfl, fun hw c hc => ?_⟩
      simp only [List.mem_cons, List.not_mem_nil, or_false] at hc
      rcases hc with rfl | rfl | rfl
      · show some _ = some _
        rw [encodeQuery_special hs]
      · show spOfQuery _ = spOfQuery _
        rw [encodeQuery_special hs]
      · exact (show o.url.path = o'.url.path from hw .path (by simp))

theorem params_opaque (P : URLObj → Prop) (k : Params → Params) :
    Local P [.fragment] [.query, .params, .path] (fun o => spMutate o (k o.params)) := by
  refine Local.assign (fun _ => .ok ()) (fun o => ⟨spUpdate (k o.params) o.url, k o.params⟩) (fun o _ => rfl) ?_ ?_
  · intro o _ c hc
    by_cases h : spToStr (k o.params) = []
    · rw [spUpdate_nil h]
      refine rstrip_frame (fun h => hc (by rw [h]; simp)) ?_
      cases c <;> first | rfl | simp at hc
    · rw [spUpdate_cons h]
      cases c <;> first | rfl | simp at hc
  · intro o o' _ _ h
    refine ⟨rfl, fun hw => ?_⟩
    have hp : o.params = o'.params := hw .params (by simp)
    rw [hp]
    by_cases h' : spToStr (k o'.params) = []
    · rw [spUpdate_nil h', spUpdate_nil h']
      exact noQuery_opaque P _ _ h hw rfl
    · rw [spUpdate_cons h', spUpdate_cons h']
      intro c hc
      simp only [List.mem_cons, List.not_mem_nil, or_false] at hc
      rcases hc with rfl | rfl | rfl
      · rfl
      · rfl
      · exact (show o.url.path = o'.url.path from hw .path (by simp))

end Urlstd
