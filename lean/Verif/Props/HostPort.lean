/-
Property C90: `host` is `hostname` and `port` in one; and what it means for C44.
-/
import Verif.Lemmas.HostText
import Verif.Lemmas.Machine5
import Verif.Props.Host
import Verif.Props.OwnValue
import Verif.Props.Setter

set_option linter.unusedVariables false

namespace Urlstd.Props

open Spec (HostPart Closed Visible AuthorityEnd thenDo TabOrNewline isSpecial)

/-- a record whose path is opaque has no host -/
theorem opaque_no_host {env : Env} {o : URLObj} (h : Reached env o) (ho : o.url.hasOpaquePath = true) : o.url.host = none := by
  unfold Rec.hasOpaquePath at ho
  split at ho
  · next s hp => exact ((C45_guarantees_partial env o h).2.2.1 s hp).1
  · cases ho

/-- C90. On a URL whose scheme is not "file", to assign a host, a colon and a text that is not empty to `host` is to assign the host to
`hostname` and then the text to `port`, unless the first raises. -/
theorem C90_host_and_port (env : Env) (o : URLObj) (h : Reached env o) (b r : Str) (hf : o.url.scheme ≠ u!"file")
    (hb : HostPart (isSpecial o.url.scheme) b) (hc : Closed b) (hv : Visible b) (hs : Spec.IsStr b) (hr : r ≠ []) :
    applyOp env o (.host (b ++ u!":" ++ r)) = thenDo (applyOp env o (.hostname b)) fun o' => applyOp env o' (.port r) := by
  show setHost env o _ = thenDo (setHostname env o b) fun o' => setPort env o' r
  rw [isSpecial_rec] at hb
  cases ho : o.url.hasOpaquePath with
  | true =>
    have h1 : ∀ v, setHost env o v = (.ok (), o) := by intro v; unfold setHost; rw [if_pos ho]
    have h2 : ∀ v, setHostname env o v = (.ok (), o) := by intro v; unfold setHostname; rw [if_pos ho]
    have hu : o.url.cannotHaveUPP = true := by
      unfold Rec.cannotHaveUPP Rec.hostNoneOrEmpty
      rw [opaque_no_host h ho]
      rfl
    have h3 : setPort env o r = (.ok (), o) := by unfold setPort; rw [if_pos hu]
    rw [h1, h2]
    exact h3.symm
  | false =>
    rw [setHost_eq env o _ ho, setHostname_eq env o b ho, hostOut_port env.quiet .host o.url b r hf hb hc,
      if_neg (removeTab_ne_nil hv), if_neg (by decide)]
    have e := hostnameOut_text env.quiet .hostname o.url b [] hf hb (fun c hc => by cases hc)
    rw [List.append_nil] at e
    rw [e, hostEndOut_visible _ _ _ (removeTab_ne_nil hv)]
    cases hh : (hostParse env.quiet (removeTabNewline b) (!o.url.isSpecial)).res with
    | error e => rfl
    | ok x =>
      dsimp only [thenDo]
      rw [setPort_eq env _ r ?_ hr]
      unfold Rec.cannotHaveUPP Rec.hostNoneOrEmpty
      dsimp only
      have hx : x ≠ .str [] := by
        rintro rfl
        have hs' : Spec.IsStr (removeTabNewline b) := fun c hc => hs c (List.mem_filter.1 hc).1
        exact removeTab_ne_nil hv (C17_empty_only_for_empty env.quiet (removeTabNewline b) (!o.url.isSpecial)
          (hostParse env.quiet (removeTabNewline b) (!o.url.isSpecial)).log hs' (by rw [← hh]))
      cases x with
      | str s =>
        have : s ≠ [] := by rintro rfl; exact hx rfl
        simp [hf, this]
      | ipv4 n => simp [hf]
      | ipv6 a => simp [hf]

/-- C90. Nothing behind the colon, or something that does not begin with a digit, does not matter: the port stays as it is. -/
theorem C90_no_digits (env : Env) (o : URLObj) (b r : Str) (hf : o.url.scheme ≠ u!"file")
    (hb : HostPart (isSpecial o.url.scheme) b) (hc : Closed b) (hv : Visible b)
    (hr : ∀ c, (Spec.dropTabs r).head? = some c → ¬ Spec.Digit c) :
    applyOp env o (.host (b ++ u!":" ++ r)) = applyOp env o (.hostname b) := by
  show setHost env o _ = setHostname env o b
  rw [isSpecial_rec] at hb
  cases ho : o.url.hasOpaquePath with
  | true =>
    have h1 : ∀ v, setHost env o v = (.ok (), o) := by intro v; unfold setHost; rw [if_pos ho]
    have h2 : ∀ v, setHostname env o v = (.ok (), o) := by intro v; unfold setHostname; rw [if_pos ho]
    rw [h1, h2]
  | false =>
    rw [setHost_eq env o _ ho, setHostname_eq env o b ho, hostOut_port env.quiet .host o.url b r hf hb hc,
      if_neg (removeTab_ne_nil hv), if_neg (by decide)]
    have e := hostnameOut_text env.quiet .hostname o.url b [] hf hb (fun c hc => by cases hc)
    rw [List.append_nil] at e
    rw [e, hostEndOut_visible _ _ _ (removeTab_ne_nil hv)]
    have hd : (removeTabNewline r).takeWhile isDigit = [] := by
      cases hr' : removeTabNewline r with
      | nil => rfl
      | cons c cs =>
        have := hr c (by
          rw [dropTabs_eq, hr']; rfl)
        rw [List.takeWhile_cons, if_neg]
        intro hd
        apply this
        simp only [isDigit, Bool.and_eq_true, decide_eq_true_eq] at hd
        exact hd
    rw [hd]
    cases hh : (hostParse env.quiet (removeTabNewline b) (!o.url.isSpecial)).res <;> rfl

/-- C90. Without a colon, or with colons in brackets only, `host` and `hostname` are the same; a slash, "?" or "#" (for a special URL
also a backslash) and what follows is ignored by both. -/
theorem C90_without_port (env : Env) (o : URLObj) (b r : Str) (hf : o.url.scheme ≠ u!"file")
    (hb : HostPart (isSpecial o.url.scheme) b) (hr : ∀ c, r.head? = some c → AuthorityEnd (isSpecial o.url.scheme) c) :
    applyOp env o (.host (b ++ r)) = applyOp env o (.hostname b) ∧
    applyOp env o (.hostname (b ++ r)) = applyOp env o (.hostname b) := by
  show setHost env o _ = setHostname env o b ∧ setHostname env o _ = setHostname env o b
  rw [isSpecial_rec] at hb hr
  cases ho : o.url.hasOpaquePath with
  | true =>
    have h1 : ∀ v, setHost env o v = (.ok (), o) := by intro v; unfold setHost; rw [if_pos ho]
    have h2 : ∀ v, setHostname env o v = (.ok (), o) := by intro v; unfold setHostname; rw [if_pos ho]
    rw [h1, h2, h2]
    exact ⟨rfl, rfl⟩
  | false =>
    have hr' : ∀ c, (removeTabNewline r).head? = some c → AuthorityEnd o.url.isSpecial c := by
      intro c hc
      cases r with
      | nil => cases hc
      | cons d ds =>
        have hd := hr d rfl
        have hn : isTabNewline d = false := by
          rw [← Bool.not_eq_true, isTabNewline_spec]
          unfold AuthorityEnd at hd
          unfold TabOrNewline
          omega
        have : removeTabNewline (d :: ds) = d :: removeTabNewline ds := by simp [removeTabNewline, hn]
        rw [this] at hc
        cases hc
        exact hd
    have e := hostnameOut_text env.quiet .hostname o.url b [] hf hb (fun c hc => by cases hc)
    rw [List.append_nil] at e
    rw [setHost_eq env o _ ho, setHostname_eq env o b ho, setHostname_eq env o (b ++ r) ho, e,
      hostnameOut_text env.quiet .host o.url b r hf hb hr', hostnameOut_text env.quiet .hostname o.url b r hf hb hr']
    exact ⟨rfl, rfl⟩

/-- C90. `hostname` ignores a text with a port altogether. A colon without a host in front of it is an error for both. -/
theorem C90_hostname_ignores_port (env : Env) (o : URLObj) (h : Reached env o) (b r : Str) (hf : o.url.scheme ≠ u!"file")
    (hb : HostPart (isSpecial o.url.scheme) b) (hc : Closed b) :
    (Visible b → applyOp env o (.hostname (b ++ u!":" ++ r)) = (.ok (), o)) ∧
    (¬ Visible b → (∃ l, o.url.path = .list l) → applyOp env o (.hostname (b ++ u!":" ++ r)) = (.error .urlParse, o) ∧
      applyOp env o (.host (b ++ u!":" ++ r)) = (.error .urlParse, o)) := by
  rw [isSpecial_rec] at hb
  constructor
  · intro hv
    show setHostname env o _ = _
    cases ho : o.url.hasOpaquePath with
    | true => unfold setHostname; rw [if_pos ho]
    | false =>
      rw [setHostname_eq env o _ ho, hostOut_port env.quiet .hostname o.url b r hf hb hc, if_neg (removeTab_ne_nil hv), if_pos rfl]
  · rintro hv ⟨l, hl⟩
    show setHostname env o _ = _ ∧ setHost env o _ = _
    have ho : o.url.hasOpaquePath = false := by unfold Rec.hasOpaquePath; rw [hl]
    have hn : removeTabNewline b = [] := by
      unfold removeTabNewline
      rw [List.filter_eq_nil_iff]
      intro c hc
      have : TabOrNewline c := by
        by_contra hn
        exact hv ⟨c, hc, hn⟩
      rw [← isTabNewline_spec] at this
      simpa using this
    rw [setHostname_eq env o _ ho, setHost_eq env o _ ho, hostOut_port env.quiet .hostname o.url b r hf hb hc,
      hostOut_port env.quiet .host o.url b r hf hb hc, if_pos hn, if_pos hn]
    exact ⟨rfl, rfl⟩

/-- C90. On a "file" URL the two attributes are set in the same way, whatever the text. -/
theorem C90_file (env : Env) (o : URLObj) (v : Str) (hf : o.url.scheme = u!"file") :
    applyOp env o (.host v) = applyOp env o (.hostname v) := by
  show setHost env o v = setHostname env o v
  cases ho : o.url.hasOpaquePath with
  | true =>
    unfold setHost setHostname
    rw [if_pos ho, if_pos ho]
  | false =>
    rw [setHost_eq env o _ ho, setHostname_eq env o _ ho]
    unfold hostSetOut
    rw [if_pos hf, if_pos hf]

/-- C90. These are all texts: every text, once tabs and newlines are dropped, is a host and a rest that begins where the authority ends,
or a host, a colon and a rest. -/
theorem C90_every_text (special : Bool) (v : Str) : ∃ b r, HostPart special b ∧ Spec.dropTabs v = b ++ r ∧
    ((∀ c, r.head? = some c → AuthorityEnd special c) ∨ ∃ r', r = u!":" ++ r' ∧ Closed b) := by
  rw [dropTabs_eq]
  exact hostText_split special v

/-! ### C44 -/

/-- C44, what a failing `host` does, exactly: the object is as it was, unless the text is a host, a colon and a number that is refused
as a port. In this case the object is as after the assignment of the host to `hostname`. -/
theorem C44_failed_host_exact (env : Env) (o : URLObj) (h : Reached env o) (v : Str) (hs : Spec.IsStr v) (err : Err)
    (he : (applyOp env o (.host v)).1 = .error err) :
    (applyOp env o (.host v)).2 = o ∨
      ∃ b r, HostPart (isSpecial o.url.scheme) b ∧ Closed b ∧ Spec.dropTabs v = b ++ u!":" ++ r ∧
        applyOp env o (.hostname b) = (.ok (), (applyOp env o (.host v)).2) ∧
        applyOp env (applyOp env o (.host v)).2 (.port r) = (.error err, (applyOp env o (.host v)).2) := by
  have hstr : ∀ c ∈ Spec.dropTabs v, c ≤ 0x10FFFF := fun c hc => hs c (List.mem_filter.1 hc).1
  have e0 : applyOp env o (.host v) = applyOp env o (.host (Spec.dropTabs v)) := by
    show setHost env o v = setHost env o (Spec.dropTabs v)
    rw [dropTabs_eq]
    cases ho : o.url.hasOpaquePath with
    | true => unfold setHost; rw [if_pos ho, if_pos ho]
    | false => rw [setHost_eq env o _ ho, setHost_eq env o _ ho, removeTabNewline_idem]
  have hname : ∀ (w : Str) (e : Err), (applyOp env o (.hostname w)).1 = .error e → (applyOp env o (.hostname w)).2 = o :=
    fun w e h => C44_failed_assignment_partial env o (.hostname w) (by intro _ h; cases h) e h
  rw [e0] at he ⊢
  by_cases hf : o.url.scheme = u!"file"
  · left
    rw [C90_file env o _ hf] at he ⊢
    exact hname _ _ he
  · obtain ⟨b, r, h1, h2, h3⟩ := C90_every_text (isSpecial o.url.scheme) v
    rw [h2] at he hstr ⊢
    rcases h3 with h3 | ⟨r', rfl, h3⟩
    · left
      rw [(C90_without_port env o b r hf h1 h3).1] at he ⊢
      exact hname _ _ he
    · rw [← List.append_assoc] at he hstr ⊢
      by_cases hv : Visible b
      · by_cases hr : r' = []
        · left
          subst hr
          rw [C90_no_digits env o b [] hf h1 h3 hv (fun c hc => by cases hc)] at he ⊢
          exact hname _ _ he
        · have e1 := C90_host_and_port env o h b r' hf h1 h3 hv (fun c hc => hstr c (by simp [hc])) hr
          rw [e1] at he ⊢
          generalize hx : applyOp env o (.hostname b) = x at he ⊢
          obtain ⟨x1, o'⟩ := x
          cases x1 with
          | error e =>
            left
            have := hname b e (by rw [hx])
            rw [hx] at this
            exact this
          | ok _ =>
            right
            dsimp only [thenDo] at he ⊢
            have h4 := C44_failed_assignment_partial env o' (.port r') (by intro _ h; cases h) err he
            rw [h4]
            exact ⟨b, r', h1, h3, rfl, hx, Prod.ext he h4⟩
      · left
        cases ho : o.url.hasOpaquePath with
        | true =>
          show (setHost env o _).2 = o
          unfold setHost; rw [if_pos ho]
        | false =>
          have : ∃ l, o.url.path = .list l := by
            unfold Rec.hasOpaquePath at ho
            split at ho
            · cases ho
            · next hp => exact ⟨_, hp⟩
          rw [((C90_hostname_ignores_port env o h b r' hf h1 h3).2 hv this).2]

-- the parts of "[1:2::3]:8080" and of "new:99999"
example : HostPart true u!"[1:2::3]" ∧ Closed u!"[1:2::3]" := by
  refine ⟨⟨by simp [AuthorityEnd], fun x y h => ?_⟩, ?_⟩
  · rw [← bracketAfter_false]
    have : ∀ n ≤ 8, u!"[1:2::3]" = (u!"[1:2::3]").take n ++ u!":" ++ (u!"[1:2::3]").drop (n + 1) → bracketAfter false ((u!"[1:2::3]").take n) = true := by
      decide
    have hl := congrArg List.length h
    simp at hl
    have hx : (u!"[1:2::3]").take x.length = x := by rw [h]; simp
    have hy : (u!"[1:2::3]").drop (x.length + 1) = y := by rw [h]; simp
    have := this x.length (by omega) (by rw [hx, hy]; exact h)
    rwa [hx] at this
  · unfold Closed
    rw [← bracketAfter_false]
    decide
example : applyOp exEnv exStart (.host u!"[1:2::3]:8080") =
    thenDo (applyOp exEnv exStart (.hostname u!"[1:2::3]")) fun o' => applyOp exEnv o' (.port u!"8080") := by decide +kernel
example : (applyOp exEnv exStart (.host u!"[1:2::3]:8080")).2.href = u!"http://[1:2::3]:8080/a?x=1#f" := by decide +kernel
example : applyOp exEnv exStart (.hostname u!"new:81") = (.ok (), exStart) := by decide +kernel
example : (applyOp exEnv exStart (.host u!"new:99999")).1 = .error .urlParse ∧ (applyOp exEnv exStart (.host u!"new:99999")).2 ≠ exStart := by
  decide +kernel

end Urlstd.Props
