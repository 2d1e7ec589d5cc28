/-
Property C79: operations that commute.
-/
import Verif.Lemmas.Commute
import Verif.Props.History
import Verif.Props.Again

set_option linter.unusedSimpArgs false
set_option linter.unusedVariables false

namespace Urlstd.Props

open Spec (Facet Kind kindOf reads writes independent attrOf)

/-- the objects for which the operations look at and change what `reads` and `writes` say -/
def Fits (env : Env) (k : Kind) (o : URLObj) : Prop :=
  match k with
  | .opaque => o.url.hasOpaquePath = true
  | .hostless => o.url.hasOpaquePath = false
  | .hosted => o.url.hasOpaquePath = false ∧ o.url.host ≠ none
  | .web => Reached env o ∧ [u!"ftp", u!"http", u!"https", u!"ws", u!"wss"].contains o.url.scheme = true

theorem web_facts {env : Env} {o : URLObj} (h : Fits env .web o) :
    o.url.hasOpaquePath = false ∧ o.url.host ≠ none ∧ o.url.isSpecial = true ∧ o.url.hostNoneOrEmpty = false := by
  obtain ⟨hr, hs⟩ := h
  have hm : o.url.scheme = u!"ftp" ∨ o.url.scheme = u!"http" ∨ o.url.scheme = u!"https" ∨ o.url.scheme = u!"ws" ∨
      o.url.scheme = u!"wss" := by simpa using hs
  have hsp : Spec.Special o.url.scheme := by
    rcases hm with e | e | e | e | e <;> rw [e] <;> simp [Spec.Special, Spec.specialSchemes]
  have hf : o.url.scheme ≠ u!"file" := by
    rcases hm with e | e | e | e | e <;> rw [e] <;> decide
  obtain ⟨⟨x, hx, he⟩, segs, hp, _⟩ := (C45_guarantees_partial env o hr).2.1 hsp
  refine ⟨by unfold Rec.hasOpaquePath; rw [hp], by rw [hx]; simp, ?_, ?_⟩
  · unfold Rec.isSpecial
    rcases hm with e | e | e | e | e <;> rw [e] <;> decide
  · unfold Rec.hostNoneOrEmpty
    rw [hx]
    have := fun h => hf (he h)
    cases x with
    | str s =>
      cases s with
      | nil => exact absurd rfl this
      | cons => rfl
    | _ => rfl

theorem Fits.listed {env : Env} {k : Kind} (h : k ≠ .opaque) : Listed (Fits env k) := by
  intro o ho
  cases k with
  | «opaque» => exact absurd rfl h
  | hostless => exact ho
  | hosted => exact ho.1
  | web => exact (web_facts ho).1

/-- a host assignment to a URL of kind `web` leaves no empty host -/
theorem web_bare {env : Env} {o : URLObj} (h : Fits env .web o) (op : Op) (hop : op.IsStr)
    (hs : (applyOp env o op).2.url.scheme = o.url.scheme) :
    o.url.hostNoneOrEmpty = (applyOp env o op).2.url.hostNoneOrEmpty := by
  rw [(web_facts h).2.2.2, (web_facts (env := env) (o := (applyOp env o op).2) ⟨.op h.1 hop, by rw [hs]; exact h.2⟩).2.2.2]

theorem op_local (env : Env) (k : Kind) (op : Op) (hop : op.IsStr) (hh : ∀ v, op ≠ .href v) :
    Local (Fits env k) (reads k op) (writes k op) (fun o => applyOp env o op) := by
  by_cases hk : k = .opaque
  · subst hk
    have no : ∀ o, Fits env .opaque o → o.url.hasOpaquePath = true := fun _ h => h
    cases op with
    | hash v => exact hash_opaque env _ v
    | host v => exact nothing_local _ fun o ho => (if_pos (no o ho) : setHost env o v = _)
    | hostname v => exact nothing_local _ fun o ho => (if_pos (no o ho) : setHostname env o v = _)
    | href v => exact absurd rfl (hh v)
    | password v => exact password_local _ v
    | pathname v => exact nothing_local _ fun o ho => (if_pos (no o ho) : setPathname env o v = _)
    | port v => exact port_local env _ v
    | protocol v => exact protocol_local env _ v
    | search v => exact search_opaque env _ v
    | username v => exact username_local _ v
    | spAppend n v => exact params_opaque _ (fun l => Urlstd.spAppend l n v)
    | spDelete n v => exact params_opaque _ (fun l => Urlstd.spDelete l n v)
    | spSet n v => exact params_opaque _ (fun l => Urlstd.spSet l n v)
    | spSort => exact params_opaque _ (fun l => Urlstd.spSort l)
  · have hl := Fits.listed (env := env) hk
    have ht : ∀ (a b : List Facet), (if k = Kind.opaque then a else b) = b := fun a b => if_neg hk
    cases op with
    | hash v =>
      simp only [reads, writes, ht]
      exact hash_local env hl v
    | host v =>
      have hf : ∀ o, Fits env k o → applyOp env o (.host v) = _ := fun o ho => setHost_eq env o v (hl o ho)
      cases k with
      | «opaque» => exact absurd rfl hk
      | hostless =>
        exact hostSet_local env .host v hl (by simp [reads]) (.inr (by simp [reads])) (by simp [writes]) (by simp [writes])
          (by simp [writes]) (by simp [writes]) _ hf
      | hosted =>
        exact hostSet_local env .host v hl (by simp [reads]) (.inr (by simp [reads])) (by simp [writes]) (by simp [writes])
          (by simp [writes]) (fun _ o ho => ho.2) _ hf
      | web =>
        exact hostSet_local env .host v hl (by simp [reads]) (.inl fun o ho => (web_facts ho).2.2.1) (by simp [writes])
          (by simp [writes]) (fun _ o ho => by
            have := web_bare ho (.host v) hop (by
              rw [hf o ho]
              rcases (hostSetOut_local env.quiet .host o.url o.url (removeTabNewline v) rfl (.inr rfl)).2 with
                ⟨h, _⟩ | ⟨h, e, _⟩ | ⟨_, h, p, e, _⟩
              · rw [h]
              · rw [e]
              · rw [e])
            rw [hf o ho] at this
            exact this) (fun _ o ho => (web_facts ho).2.1) _ hf
    | hostname v =>
      have hf : ∀ o, Fits env k o → applyOp env o (.hostname v) = _ := fun o ho => setHostname_eq env o v (hl o ho)
      cases k with
      | «opaque» => exact absurd rfl hk
      | hostless =>
        exact hostSet_local env .hostname v hl (by simp [reads]) (.inr (by simp [reads])) (by simp [writes]) (by simp [writes])
          (by simp [writes]) (by simp [writes]) _ hf
      | hosted =>
        exact hostSet_local env .hostname v hl (by simp [reads]) (.inr (by simp [reads])) (by simp [writes]) (by simp [writes])
          (by simp [writes]) (fun _ o ho => ho.2) _ hf
      | web =>
        exact hostSet_local env .hostname v hl (by simp [reads]) (.inl fun o ho => (web_facts ho).2.2.1) (by simp [writes])
          (by simp [writes]) (fun _ o ho => by
            have := web_bare ho (.hostname v) hop (by
              rw [hf o ho]
              rcases (hostSetOut_local env.quiet .hostname o.url o.url (removeTabNewline v) rfl (.inr rfl)).2 with
                ⟨h, _⟩ | ⟨h, e, _⟩ | ⟨_, h, p, e, _⟩
              · rw [h]
              · rw [e]
              · rw [e])
            rw [hf o ho] at this
            exact this) (fun _ o ho => (web_facts ho).2.1) _ hf
    | href v => exact absurd rfl (hh v)
    | password v => exact password_local _ v
    | pathname v =>
      simp only [reads, writes, ht]
      exact pathname_local env hl v
    | port v => exact port_local env _ v
    | protocol v => exact protocol_local env _ v
    | search v =>
      simp only [reads, writes, ht]
      exact search_local env hl v
    | username v => exact username_local _ v
    | spAppend n v =>
      simp only [reads, writes, ht]
      exact params_local hl (fun l => Urlstd.spAppend l n v)
    | spDelete n v =>
      simp only [reads, writes, ht]
      exact params_local hl (fun l => Urlstd.spDelete l n v)
    | spSet n v =>
      simp only [reads, writes, ht]
      exact params_local hl (fun l => Urlstd.spSet l n v)
    | spSort =>
      simp only [reads, writes, ht]
      exact params_local hl (fun l => Urlstd.spSort l)

/-- an operation leaves an object one of the same kind -/
theorem Fits.keep {env : Env} {k : Kind} {o : URLObj} (h : Fits env k o) (op : Op) (hop : op.IsStr) (hh : ∀ v, op ≠ .href v)
    (hp : k = .web → ∀ v, op ≠ .protocol v) : Fits env k (applyOp env o op).2 := by
  have hf := (op_local env k op hop hh).frame o h
  have h1 : o.url.hasOpaquePath = (applyOp env o op).2.url.hasOpaquePath := by
    refine hf .opq ?_
    cases op <;> cases k <;> first | (exact absurd rfl (hh _)) | simp [writes]
  cases k with
  | «opaque» => exact h1.symm.trans h
  | hostless => exact h1.symm.trans h
  | hosted =>
    refine ⟨h1.symm.trans h.1, ?_⟩
    have h2 : o.url.host.isNone = (applyOp env o op).2.url.host.isNone := by
      refine hf .null ?_
      cases op <;> first | (exact absurd rfl (hh _)) | simp [writes]
    intro e
    rw [e] at h2
    exact h.2 (Option.isNone_iff_eq_none.1 h2)
  | web =>
    refine ⟨.op h.1 hop, ?_⟩
    have h2 : o.url.scheme = (applyOp env o op).2.url.scheme := by
      refine hf .scheme ?_
      cases op <;> first | (exact absurd rfl (hh _)) | (exact absurd rfl (hp rfl _)) | simp [writes]
    rw [← h2]
    exact h.2

theorem commute_fits {env : Env} {k : Kind} {o : URLObj} (h : Fits env k o) (a b : Op) (ha : a.IsStr) (hb : b.IsStr)
    (hi : independent k a b = true) (hw : k = .web → ∀ v, a ≠ .protocol v ∧ b ≠ .protocol v) :
    (applyOp env (applyOp env o a).2 b).1 = (applyOp env o b).1 ∧
    (applyOp env (applyOp env o b).2 a).1 = (applyOp env o a).1 ∧
    (applyOp env (applyOp env o a).2 b).2 = (applyOp env (applyOp env o b).2 a).2 := by
  have na : ∀ v, a ≠ .href v := by
    rintro v rfl
    revert hi
    cases b <;> cases k <;> exact fun h => Bool.false_ne_true h
  have nb : ∀ v, b ≠ .href v := by
    rintro v rfl
    revert hi
    cases a <;> cases k <;> exact fun h => Bool.false_ne_true h
  unfold independent at hi
  simp only [Bool.and_eq_true, List.all_eq_true, Bool.not_eq_true', List.contains_eq_mem, decide_eq_false_iff_not] at hi
  exact Local.commute (op_local env k a ha na) (op_local env k b hb nb) hi.1 hi.2 o h
    (h.keep a ha na fun e v => (hw e v).1) (h.keep b hb nb fun e v => (hw e v).2)

/-- C79. Two operations on a URL that do not interfere — neither may change what the other looks at or may change, according
to the tables `reads` and `writes` — can be performed in either order: the outcomes, exceptions included, and the resulting
object are the same. In particular, none of them can tell whether the other one has happened. -/
theorem C79_commute (env : Env) (o : URLObj) (ho : Reached env o) (a b : Op) (ha : a.IsStr) (hb : b.IsStr)
    (hi : independent (kindOf o.url) a b = true) :
    (applyOp env (applyOp env o a).2 b).1 = (applyOp env o b).1 ∧
    (applyOp env (applyOp env o b).2 a).1 = (applyOp env o a).1 ∧
    (applyOp env (applyOp env o a).2 b).2 = (applyOp env (applyOp env o b).2 a).2 := by
  unfold kindOf at hi
  split at hi
  · next s hs => exact commute_fits (k := .opaque) (by show Rec.hasOpaquePath _ = _; unfold Rec.hasOpaquePath; rw [hs]) a b ha hb hi (by simp)
  · next l hl =>
    have hol : o.url.hasOpaquePath = false := by unfold Rec.hasOpaquePath; rw [hl]
    split at hi
    · exact commute_fits (k := .hostless) hol a b ha hb hi (by simp)
    · next hn =>
      split at hi
      · next hw =>
        by_cases hp : ∀ v, a ≠ .protocol v ∧ b ≠ .protocol v
        · exact commute_fits (k := .web) ⟨ho, hw⟩ a b ha hb hi fun _ => hp
        · refine commute_fits (k := .hosted) ⟨hol, hn⟩ a b ha hb ?_ (by simp)
          simp only [not_forall, not_and_or, not_not] at hp
          obtain ⟨v, rfl | rfl⟩ := hp
          · revert hi; cases b <;> first | exact fun _ => rfl | exact fun h => (Bool.false_ne_true h).elim
          · revert hi; cases a <;> first | exact fun _ => rfl | exact fun h => (Bool.false_ne_true h).elim
      · exact commute_fits (k := .hosted) ⟨hol, hn⟩ a b ha hb hi (by simp)

-- a port that makes the assignment fail, and a path
example : independent (kindOf exStart.url) (.host u!"new:99999") (.pathname u!"/b") = true ∧
    (applyOp exEnv exStart (.host u!"new:99999")).1 = .error .urlParse ∧
    (applyOp exEnv (applyOp exEnv exStart (.host u!"new:99999")).2 (.pathname u!"/b")).2.href = u!"http://new/b?x=1#f" := by
  decide +kernel

-- what is independent of what for an http URL
example : kindOf exStart.url = .web ∧
    (∀ p ∈ [(Op.hash [], Op.search []), (.hash [], .spSort), (.host [], .username []), (.hostname [], .port []), (.protocol [], .search []),
      (.pathname [], .host []), (.username [], .password [])], independent .web p.1 p.2 = true ∧ independent .web p.2 p.1 = true) ∧
    (∀ p ∈ [(Op.host [], Op.hostname []), (.search [], .spSort), (.protocol [], .port []), (.protocol [], .pathname []), (.href [], .hash [])],
      independent .web p.1 p.2 = false ∧ independent .web p.2 p.1 = false) := by decide +kernel

/-- C79. For URLs with a special scheme other than "file" this means that the assignments to any two of `hash`, `search`,
`pathname`, `hostname`, `port`, `username` and `password` commute, and every change of the parameters commutes with all of these
but `search`. -/
theorem C79_web (env : Env) (o : URLObj) (ho : Reached env o)
    (hs : o.url.scheme ∈ [u!"ftp", u!"http", u!"https", u!"ws", u!"wss"]) (a b : Op) (ha : a.IsStr) (hb : b.IsStr)
    (h1 : attrOf a ≠ none) (h2 : attrOf b ≠ none) (h : attrOf a ≠ attrOf b) :
    (applyOp env (applyOp env o a).2 b).2 = (applyOp env (applyOp env o b).2 a).2 := by
  refine (C79_commute env o ho a b ha hb ?_).2.2
  have hc : [u!"ftp", u!"http", u!"https", u!"ws", u!"wss"].contains o.url.scheme = true := by simpa using hs
  obtain ⟨hp, hn, _⟩ := web_facts ⟨ho, hc⟩
  have hk : kindOf o.url = .web := by
    unfold kindOf
    split
    · next hl => unfold Rec.hasOpaquePath at hp; rw [hl] at hp; cases hp
    · rw [if_neg hn, if_pos hc]
  rw [hk]
  cases a <;> cases b <;> first | rfl | exact absurd rfl h | exact absurd rfl h1 | exact absurd rfl h2

example : (applyOp exEnv (applyOp exEnv exStart (.port u!"81")).2 (.hostname u!"i")).2 =
      (applyOp exEnv (applyOp exEnv exStart (.hostname u!"i")).2 (.port u!"81")).2 ∧
    (applyOp exEnv (applyOp exEnv exStart (.port u!"81")).2 (.hostname u!"i")).2.href = u!"http://i:81/a?x=1#f" :=
  ⟨C79_web exEnv exStart exStart_reached (by decide) _ _ (by show Spec.IsStr _; decide) (by show Spec.IsStr _; decide)
    (by decide) (by decide) (by decide), by
    decide +kernel⟩

/-- "foo://h/p" -/
def exFoo : URLObj := ⟨{ scheme := u!"foo", host := some (.str u!"h"), path := .list [u!"p"] }, []⟩
/-- "foo:/p" -/
def exBare : URLObj := ⟨{ scheme := u!"foo", path := .list [u!"p"] }, []⟩

/-- C79. Assignments to different attributes do not commute in general, so the tables could not be smaller: the port and the
scheme interact through the default port, the credentials and the host of a URL that is not special through the ban on credentials
without host, the path and a missing host through the empty path, and the fragment and the query of a URL with an opaque path
through the spaces at its end. -/
theorem C79_dependent :
    (Reached exEnv exStart ∧
      (applyOp exEnv (applyOp exEnv exStart (.port u!"80")).2 (.protocol u!"https")).2.href = u!"https://h/a?x=1#f" ∧
      (applyOp exEnv (applyOp exEnv exStart (.protocol u!"https")).2 (.port u!"80")).2.href = u!"https://h:80/a?x=1#f") ∧
    (Reached exEnv exFoo ∧
      (applyOp exEnv (applyOp exEnv exFoo (.username u!"u")).2 (.hostname [])).2.href = u!"foo://u@h/p" ∧
      (applyOp exEnv (applyOp exEnv exFoo (.hostname [])).2 (.username u!"u")).2.href = u!"foo:///p") ∧
    (Reached exEnv exBare ∧
      (applyOp exEnv (applyOp exEnv exBare (.pathname [])).2 (.host u!"h")).2.href = u!"foo://h/" ∧
      (applyOp exEnv (applyOp exEnv exBare (.host u!"h")).2 (.pathname [])).2.href = u!"foo://h") ∧
    (Reached exEnv exTrailing ∧
      (applyOp exEnv (applyOp exEnv exTrailing (.hash [])).2 (.search u!"x")).2.href = u!"foo:bar?x" ∧
      (applyOp exEnv (applyOp exEnv exTrailing (.search u!"x")).2 (.hash [])).2.href = u!"foo:bar ?x") := by
  refine ⟨⟨exStart_reached, by decide +kernel, by decide +kernel⟩, ⟨.new (s := u!"foo://h/p") (by decide) (by decide +kernel), by
    decide +kernel, by decide +kernel⟩, ⟨.new (s := u!"foo:/p") (by decide) (by decide +kernel), by decide +kernel, by
    decide +kernel⟩, C75_false.1.1, by decide +kernel, by decide +kernel⟩

end Urlstd.Props
