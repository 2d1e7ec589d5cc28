/-
Properties C74 and C75: the same assignment twice, and one assignment after another.
-/
import Verif.Lemmas.Again2
import Verif.Lemmas.Machine5
import Verif.Props.OwnValue

set_option linter.unusedSimpArgs false

namespace Urlstd.Props

open Spec (Digit decimal)

/-! ### C74 -/

/-- C74. To perform an operation twice is to perform it once: the second time has the outcome of the first, exception
included, and leaves the object as the first time did. This holds for every assignment and for `set`, `delete` and `sort`, of
any object (`append` adds another pair every time). -/
theorem C74_twice (env : Env) (o : URLObj) (op : Op) (h : ∀ n v, op ≠ .spAppend n v) :
    applyOp env (applyOp env o op).2 op = applyOp env o op := by
  cases op with
  | hash v => exact hash_twice env o v
  | host v => exact (host_twice env o v).1
  | hostname v => exact (host_twice env o v).2
  | href v => exact href_twice env o v
  | password v => exact (userinfo_again o v v).2
  | pathname v => exact pathname_twice env o v
  | port v => exact port_twice env o v
  | protocol v => exact protocol_twice env o v
  | search v => exact search_twice env o v
  | username v => exact (userinfo_again o v v).1
  | spAppend n v => exact absurd rfl (h n v)
  | spDelete n v => exact spMutate_twice o (fun l => Urlstd.spDelete l n v) (spDelete_again o.params n v)
  | spSet n v => exact spMutate_twice o (fun l => Urlstd.spSet l n v) (spSet_again o.params n v v)
  | spSort => exact spMutate_twice o Urlstd.spSort (spSort_again o.params)

-- an assignment that raises and yet changes the URL (C44), done twice
example : applyOp exEnv exStart (.host u!"new:99999") =
      (.error .urlParse, { exStart with url := { exStart.url with host := some (.str u!"new") } }) ∧
    applyOp exEnv (applyOp exEnv exStart (.host u!"new:99999")).2 (.host u!"new:99999") =
      applyOp exEnv exStart (.host u!"new:99999") :=
  ⟨by decide +kernel, C74_twice _ _ _ (by intro _ _ h; cases h)⟩

-- `append` is excluded for a reason
example : applyOp exEnv (applyOp exEnv exStart (.spAppend u!"a" (.str u!"b"))).2 (.spAppend u!"a" (.str u!"b")) ≠
    applyOp exEnv exStart (.spAppend u!"a" (.str u!"b")) := by decide +kernel

/-! ### C75 -/

/-- "foo:bar " followed by a query -/
def exTrailing : URLObj := ⟨{ scheme := u!"foo", path := .opaque u!"bar ", fragment := some u!"f" }, []⟩

/-- C75 is false for `hash` and `search`: the empty text strips the spaces at the end of an opaque path, which the next
assignment does not bring back. It is false for `host`, because a text without port leaves the port as it is. -/
theorem C75_false :
    (Reached exEnv exTrailing ∧
      (applyOp exEnv (applyOp exEnv exTrailing (.hash [])).2 (.hash u!"g")).2.href = u!"foo:bar#g" ∧
      (applyOp exEnv exTrailing (.hash u!"g")).2.href = u!"foo:bar #g") ∧
    (Reached exEnv exStart ∧
      (applyOp exEnv (applyOp exEnv exStart (.host u!"a:81")).2 (.host u!"b")).2.href = u!"http://b:81/a?x=1#f" ∧
      (applyOp exEnv exStart (.host u!"b")).2.href = u!"http://b/a?x=1#f") :=
  ⟨⟨.new (s := u!"foo:bar #f") (by decide) (by decide +kernel), by decide +kernel, by decide +kernel⟩,
    exStart_reached, by decide +kernel, by decide +kernel⟩

/-- C75 for `username`, `password` and `pathname`: of two assignments the second alone decides. -/
theorem C75_last_wins (env : Env) (o : URLObj) (v w : Str) (a : Attr) (ha : a = .username ∨ a = .password ∨ a = .pathname) :
    applyOp env (applyOp env o (a.set v)).2 (a.set w) = applyOp env o (a.set w) := by
  rcases ha with rfl | rfl | rfl
  · exact (userinfo_again o v w).1
  · exact (userinfo_again o v w).2
  · exact pathname_again env o v w

/-- C75 (partial) for `search` and `hash`.

Missing: the first assignment is that of the empty text, the second is not, and the path is opaque. -/
theorem C75_tail_partial (env : Env) (o : URLObj) (v w : Str) (a : Attr) (ha : a = .search ∨ a = .hash)
    (h : v ≠ [] ∨ w = [] ∨ ∃ l, o.url.path = .list l) :
    applyOp env (applyOp env o (a.set v)).2 (a.set w) = applyOp env o (a.set w) := by
  rcases ha with rfl | rfl
  · exact search_again env o v w h
  · exact hash_again env o v w h

/-- C75 for `search` and `hash`, exactly: the second alone decides, unless the first is the empty text, the second is not, and there is
a white space at the end of an opaque path that neither query nor fragment follows then. -/
theorem C75_tail_exact (env : Env) (o : URLObj) (v w : Str) (a : Attr) (ha : a = .search ∨ a = .hash) :
    applyOp env (applyOp env o (a.set v)).2 (a.set w) = applyOp env o (a.set w) ↔
      ¬ (v = [] ∧ w ≠ [] ∧ (∃ s c, o.url.path = .opaque (s ++ [c]) ∧ Spec.AsciiWhite c) ∧
        (a = .search → o.url.fragment = none) ∧ (a = .hash → o.url.query = none)) := by
  by_cases h : v ≠ [] ∨ w = []
  · constructor
    · rintro _ ⟨h1, h2, _⟩
      rcases h with h | h
      · exact h h1
      · exact h2 h
    · intro _
      refine C75_tail_partial env o v w a ha ?_
      rcases h with h | h
      · exact .inl h
      · exact .inr (.inl h)
  · simp only [not_or, not_not] at h
    obtain ⟨rfl, hw⟩ := h
    rcases ha with rfl | rfl
    · refine (search_again_iff env o w hw).trans (not_congr ?_)
      simp [hw, and_comm]
    · refine (hash_again_iff env o w hw).trans (not_congr ?_)
      simp [hw, and_comm]

/-- C75 for `href`, `port` and `hostname`: of two assignments the second alone decides, unless it has no effect, neither after the
first nor without it (it raises, or is not allowed, or says nothing about the attribute). -/
theorem C75_or_no_effect (env : Env) (o : URLObj) (v w : Str) (a : Attr) (ha : a = .href ∨ a = .port ∨ a = .hostname) :
    applyOp env (applyOp env o (a.set v)).2 (a.set w) = applyOp env o (a.set w) ∨
      ((applyOp env o (a.set w)).2 = o ∧
        applyOp env (applyOp env o (a.set v)).2 (a.set w) = ((applyOp env o (a.set w)).1, (applyOp env o (a.set v)).2)) := by
  rcases ha with rfl | rfl | rfl
  · cases h : (applyOp env o (.href w)).1 with
    | ok _ => exact .inl (href_again env o v w h)
    | error e =>
      right
      show (setHref env o w).2 = o ∧ setHref env (setHref env o v).2 w = ((setHref env o w).1, (setHref env o v).2)
      have h' : (setHref env o w).1 = .error e := h
      unfold setHref at h' ⊢
      cases hw : (basicParse env.quiet w).toExcept with
      | ok r => rw [hw] at h'; cases h'
      | error e' => exact ⟨rfl, rfl⟩
  · rcases setPort_again env o v w with h | ⟨h1, h2⟩
    · exact .inl h
    · exact .inr ⟨congrArg Prod.snd h1, h2⟩
  · rcases setHostname_again env o v w with h | ⟨h1, h2⟩
    · exact .inl h
    · exact .inr ⟨congrArg Prod.snd h1, h2⟩

/-- C75 for `port`: the empty text and decimal port numbers do have an effect. -/
theorem C75_port (env : Env) (o : URLObj) (v w : Str)
    (h : w = [] ∨ (w ≠ [] ∧ (∀ c ∈ w, Digit c) ∧ decimal w ≤ 65535 ∧ (env.maxStrDigits = 0 ∨ w.length ≤ env.maxStrDigits))) :
    applyOp env (applyOp env o (.port v)).2 (.port w) = applyOp env o (.port w) := by
  refine port_again env o v w ?_
  rcases h with h | ⟨h1, h2, h3, h4⟩
  · exact .inl h
  · right
    have hd : ∀ c ∈ w, isDigit c = true := by
      intro c hc
      have := h2 c hc
      unfold Digit at this
      simp only [isDigit, Bool.and_eq_true, decide_eq_true_eq]
      omega
    have ht : removeTabNewline w = w := by
      unfold removeTabNewline
      rw [List.filter_eq_self]
      intro c hc
      have := h2 c hc
      unfold Digit at this
      simp only [isTabNewline, Bool.not_eq_true', Bool.or_eq_false_iff, beq_eq_false_iff_ne, ne_eq]
      omega
    have hw : (removeTabNewline w).takeWhile isDigit = w := by
      rw [ht]
      exact takeWhile_all hd
    rw [hw]
    refine ⟨_, pyInt_numeral env.quiet (by omega) (fun c hc => digitValue_lt10.2 (hd c hc)) h1 (fun _ => h4), h1, ?_⟩
    rw [← decimal_eq hd]
    exact h3

/-- C75 (partial) for `host`: of two assignments the second alone decides, unless it has no effect, neither after the first nor
without it, or it leaves the port as it is (`C75_false`); then the port is that of the first assignment.

Missing: a text without a host, for a URL that is not special. If the first assignment sets a port, this has no effect. `C75_host` has all cases. -/
theorem C75_host_partial (env : Env) (o : URLObj) (v w : Str)
    (hw : Spec.Special o.url.scheme ∨ ∃ c cs, Spec.dropTabs w = c :: cs ∧ c ≠ c!":" ∧ c ≠ c!"/" ∧ c ≠ c!"?" ∧ c ≠ c!"#") :
    applyOp env (applyOp env o (.host v)).2 (.host w) = applyOp env o (.host w) ∨
      ((applyOp env o (.host w)).2 = o ∧
        applyOp env (applyOp env o (.host v)).2 (.host w) = ((applyOp env o (.host w)).1, (applyOp env o (.host v)).2)) ∨
      ((applyOp env o (.host w)).2.url.port = o.url.port ∧
        applyOp env (applyOp env o (.host v)).2 (.host w) = ((applyOp env o (.host w)).1,
          { (applyOp env o (.host w)).2 with
            url := { (applyOp env o (.host w)).2.url with port := (applyOp env o (.host v)).2.url.port } })) := by
  have key : o.url.isSpecial = true ∨ (hostSpan o.url.isSpecial false (removeTabNewline w)).1 ≠ [] := by
    rcases hw with h | ⟨c, cs, h1, h2, h3, h4, h5⟩
    · left
      exact (special_iff _).2 h
    · by_cases hs : o.url.isSpecial = true
      · exact .inl hs
      · right
        rw [dropTabs_eq] at h1
        rw [h1]
        refine hostSpan_host_ne_nil _ c cs ?_ h2
        simp [isAuthorityEnd, hs, h3, h4, h5]
  rcases setHost_again env o v w key with h | ⟨h1, h2⟩ | h
  · exact .inl h
  · exact .inr (.inl ⟨congrArg Prod.snd h1, h2⟩)
  · exact .inr (.inr h)

/-- there is a port, as the code sees it: 0 is none -/
def HasPort (u : Rec) : Prop := ∃ n, u.port = some (n + 1)

theorem hasPort_iff {u : Rec} : HasPort u ↔ u.port.any (· != 0) = true := by
  unfold HasPort
  cases u.port with
  | none => simp
  | some n => cases n <;> simp

/-- C75 for `host`, all texts: the second alone decides; or it has no effect, neither after the first nor without it; or it leaves the port as
it is, so that the port is that of the first; or it empties the host of a URL that is not special, which is refused if there is a port
other than 0, and there is one either before or after the first. -/
theorem C75_host (env : Env) (o : URLObj) (v w : Str) :
    applyOp env (applyOp env o (.host v)).2 (.host w) = applyOp env o (.host w) ∨
      ((applyOp env o (.host w)).2 = o ∧
        applyOp env (applyOp env o (.host v)).2 (.host w) = ((applyOp env o (.host w)).1, (applyOp env o (.host v)).2)) ∨
      ((applyOp env o (.host w)).2.url.port = o.url.port ∧
        applyOp env (applyOp env o (.host v)).2 (.host w) = ((applyOp env o (.host w)).1,
          { (applyOp env o (.host w)).2 with
            url := { (applyOp env o (.host w)).2.url with port := (applyOp env o (.host v)).2.url.port } })) ∨
      (¬ Spec.Special o.url.scheme ∧ (HasPort o.url ↔ ¬ HasPort (applyOp env o (.host v)).2.url) ∧
        ∀ x, x = o ∨ x = (applyOp env o (.host v)).2 →
          (HasPort x.url → applyOp env x (.host w) = (.ok (), x)) ∧
          (¬ HasPort x.url → applyOp env x (.host w) = (.ok (), { x with url := { x.url with host := some (.str []) } }))) := by
  by_cases key : o.url.isSpecial = true ∨ (hostSpan o.url.isSpecial false (removeTabNewline w)).1 ≠ []
  · rcases setHost_again env o v w key with h | ⟨h1, h2⟩ | h
    · exact .inl h
    · exact .inr (.inl ⟨congrArg Prod.snd h1, h2⟩)
    · exact .inr (.inr (.inl h))
  · have hs : o.url.isSpecial = false := by
      cases h : o.url.isSpecial with
      | false => rfl
      | true => exact absurd (.inl h) key
    have hb : (hostSpan o.url.isSpecial false (removeTabNewline w)).1 = [] := Decidable.byContradiction fun h => key (.inr h)
    cases ho : o.url.hasOpaquePath with
    | true =>
      have h2 : ∀ v, setHost env o v = (.ok (), o) := by intro v; unfold setHost; rw [if_pos ho]
      left
      show setHost env (setHost env o v).2 w = setHost env o w
      rw [h2, h2]
    | false =>
      rcases setHost_bare env o v w ho hs hb with ⟨h1, h2⟩ | h
      · exact .inr (.inl ⟨congrArg Prod.snd h1, h2⟩)
      · have h1 := h o (.inl rfl)
        have h2 := h _ (.inr rfl)
        have hform : ∃ x p, (setHost env o v).2 = { o with url := { o.url with host := x, port := p } } := by
          rw [setHost_eq env o v ho]
          exact ⟨_, _, congrArg (fun u => ({ o with url := u } : URLObj)) (hostSetOut_form env.quiet .host o.url (removeTabNewline v)).1⟩
        right
        change (setHost env o w).2 = o ∧ setHost env (setHost env o v).2 w = ((setHost env o w).1, (setHost env o v).2) ∨
          (setHost env o w).2.url.port = o.url.port ∧ setHost env (setHost env o v).2 w = ((setHost env o w).1,
            { (setHost env o w).2 with url := { (setHost env o w).2.url with port := (setHost env o v).2.url.port } }) ∨
          (¬ Spec.Special o.url.scheme ∧ (HasPort o.url ↔ ¬ HasPort (setHost env o v).2.url) ∧ ∀ x, x = o ∨ x = (setHost env o v).2 →
            (HasPort x.url → setHost env x w = (.ok (), x)) ∧
            (¬ HasPort x.url → setHost env x w = (.ok (), { x with url := { x.url with host := some (.str []) } })))
        obtain ⟨x, p, hx⟩ := hform
        by_cases p1 : HasPort o.url
        · by_cases p2 : HasPort (setHost env o v).2.url
          · left
            rw [hasPort_iff] at p1 p2
            rw [if_pos p1] at h1
            rw [if_pos p2] at h2
            rw [h1, h2]
            exact ⟨rfl, rfl⟩
          · right; right
            refine ⟨fun hsp => Bool.noConfusion (((special_iff _).2 hsp).symm.trans hs), ⟨fun _ => p2, fun _ => p1⟩, fun y hy => ⟨fun hp => ?_, fun hp => ?_⟩⟩
            · rw [h y hy, if_pos (hasPort_iff.1 hp)]
            · rw [h y hy, if_neg (fun e => hp (hasPort_iff.2 e))]
        · by_cases p2 : HasPort (setHost env o v).2.url
          · right; right
            refine ⟨fun hsp => Bool.noConfusion (((special_iff _).2 hsp).symm.trans hs), ⟨fun e => absurd e p1, fun e => absurd p2 e⟩,
              fun y hy => ⟨fun hp => ?_, fun hp => ?_⟩⟩
            · rw [h y hy, if_pos (hasPort_iff.1 hp)]
            · rw [h y hy, if_neg (fun e => hp (hasPort_iff.2 e))]
          · right; left
            rw [hasPort_iff] at p1 p2
            rw [if_neg p1] at h1
            rw [if_neg p2] at h2
            rw [h1, h2, hx]
            exact ⟨rfl, rfl⟩

/-- C75 for the pairs of `search_params`: of two calls of `set` with the same name the second alone decides. -/
theorem C75_set (env : Env) (o : URLObj) (n : Str) (v w : ParamVal) :
    applyOp env (applyOp env o (.spSet n v)).2 (.spSet n w) = applyOp env o (.spSet n w) := by
  show spMutate ⟨spUpdate (spSet o.params n v) o.url, spSet o.params n v⟩ (spSet (spSet o.params n v) n w) =
    spMutate o (spSet o.params n w)
  rw [spSet_again]
  unfold spMutate
  dsimp only
  rw [spUpdate_again]
  left
  intro h
  have := (urlencode_nil_iff _).1 h
  rcases split_first (decName n) o.params with h1 | ⟨pre, x, post, h2, h1⟩
  · rw [spSet_none v h1] at this; simp at this
  · rw [h2, spSet_some x post v h1] at this; simp at this

-- the three cases of `host`: a port, no effect, no port
example : (applyOp exEnv (applyOp exEnv exStart (.host u!"a:81")).2 (.host u!"b:82")).2.href = u!"http://b:82/a?x=1#f" ∧
    (applyOp exEnv (applyOp exEnv exStart (.host u!"a:81")).2 (.host u!"b b")).2.href = u!"http://a:81/a?x=1#f" ∧
    (applyOp exEnv (applyOp exEnv exStart (.host u!"a:81")).2 (.host u!"b")).2.href = u!"http://b:81/a?x=1#f" := by decide +kernel
-- the fourth case: "" is refused because of the port that the first brought; and because of the port that the first replaced by 0
def exBareHost : URLObj := ⟨{ scheme := u!"foo", host := some (.str u!"h"), path := .list [] }, []⟩
example : (applyOp exEnv (applyOp exEnv exBareHost (.host u!"a:81")).2 (.host [])).2.href = u!"foo://a:81" ∧
    (applyOp exEnv exBareHost (.host [])).2.href = u!"foo://" := by decide +kernel
example : (applyOp exEnv (applyOp exEnv (applyOp exEnv exBareHost (.port u!"81")).2 (.host u!"a:0")).2 (.host [])).2.href = u!"foo://:0" ∧
    (applyOp exEnv (applyOp exEnv exBareHost (.port u!"81")).2 (.host [])).2.href = u!"foo://h:81" := by decide +kernel
-- no effect
example : (applyOp exEnv (applyOp exEnv exStart (.port u!"81")).2 (.port u!"x")).2.href = u!"http://h:81/a?x=1#f" ∧
    (applyOp exEnv exStart (.port u!"x")).2 = exStart := by decide +kernel

-- the hypotheses are met
example : applyOp exEnv (applyOp exEnv exStart (.port u!"81")).2 (.port u!"0082") = applyOp exEnv exStart (.port u!"0082") :=
  C75_port _ _ _ _ (.inr ⟨by decide, by decide, by decide, by decide⟩)
example : (applyOp exEnv exStart (.port u!"0082")).2.href = u!"http://h:82/a?x=1#f" := by decide +kernel
example : (applyOp exEnv exStart (.href u!"http://x")).1 = .ok () := by decide +kernel
example : applyOp exEnv (applyOp exEnv exStart (.search [])).2 (.search u!"é") = applyOp exEnv exStart (.search u!"é") :=
  C75_tail_partial _ _ _ _ .search (.inl rfl) (.inr (.inr ⟨_, rfl⟩))

end Urlstd.Props
