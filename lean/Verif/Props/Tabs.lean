/-
C93. Tabs and newlines in assigned texts.
-/
import Verif.Lemmas.Tabs
import Verif.Props.Assign

namespace Urlstd.Props

open Spec (Assignment TabsMatter MarkBehindTab withoutTabs IsStr TabOrNewline CannotHaveUPP)

/-- C93 for `href`, `protocol`, `host`, `hostname` and `pathname`, where tabs and newlines never matter. -/
theorem C93_never (env : Env) (o : URLObj) (v : Str) :
    applyOp env o (.href (Spec.dropTabs v)) = applyOp env o (.href v) ∧
    applyOp env o (.protocol (Spec.dropTabs v)) = applyOp env o (.protocol v) ∧
    applyOp env o (.host (Spec.dropTabs v)) = applyOp env o (.host v) ∧
    applyOp env o (.hostname (Spec.dropTabs v)) = applyOp env o (.hostname v) ∧
    applyOp env o (.pathname (Spec.dropTabs v)) = applyOp env o (.pathname v) := by
  rw [dropTabs_eq]
  refine ⟨?_, ?_, ?_, ?_, ?_⟩
  · show setHref env o _ = setHref env o v
    unfold setHref
    rw [basicParse_prepared (prepared_tabs v)]
  · show setProtocol env o _ = setProtocol env o v
    rw [setProtocol_eq, setProtocol_eq, removeTab_append, removeTab_append, removeTabNewline_idem]
  · show setHost env o _ = setHost env o v
    by_cases ho : o.url.hasOpaquePath = true
    · unfold setHost
      rw [if_pos ho, if_pos ho]
    · rw [setHost_eq env o _ (by simpa using ho), setHost_eq env o _ (by simpa using ho), removeTabNewline_idem]
  · show setHostname env o _ = setHostname env o v
    by_cases ho : o.url.hasOpaquePath = true
    · unfold setHostname
      rw [if_pos ho, if_pos ho]
    · rw [setHostname_eq env o _ (by simpa using ho), setHostname_eq env o _ (by simpa using ho), removeTabNewline_idem]
  · show setPathname env o _ = setPathname env o v
    by_cases ho : o.url.hasOpaquePath = true
    · unfold setPathname
      rw [if_pos ho, if_pos ho]
    · rw [setPathname_eq env o _ (by simpa using ho), setPathname_eq env o _ (by simpa using ho), removeTabNewline_idem]

theorem username_tabs (env : Env) (o : URLObj) (v : Str) (hv : IsStr v) :
    applyOp env o (.username (Spec.dropTabs v)) = applyOp env o (.username v) ↔ ¬ TabsMatter o.url (.username v) := by
  show setUsername o _ = setUsername o v ↔ _
  unfold setUsername
  by_cases hc : CannotHaveUPP o.url
  · rw [if_pos ((cannotHaveUPP_spec _).2 hc), if_pos ((cannotHaveUPP_spec _).2 hc)]
    exact ⟨fun _ h => h.2 hc, fun _ => rfl⟩
  · rw [if_neg (mt (cannotHaveUPP_spec _).1 hc), if_neg (mt (cannotHaveUPP_spec _).1 hc), userinfoEncode_eq hv,
      userinfoEncode_eq (by rw [dropTabs_eq]; exact isStr_dropTabs hv)]
    constructor
    · rintro h ⟨h1, -⟩
      injection h with _ h
      injection h with h
      injection h with _ h
      exact userinfoEncode_tabs v h1 h
    · intro h
      rw [dropTabs_noTab fun h1 => h ⟨h1, hc⟩]

theorem password_tabs (env : Env) (o : URLObj) (v : Str) (hv : IsStr v) :
    applyOp env o (.password (Spec.dropTabs v)) = applyOp env o (.password v) ↔ ¬ TabsMatter o.url (.password v) := by
  show setPassword o _ = setPassword o v ↔ _
  unfold setPassword
  by_cases hc : CannotHaveUPP o.url
  · rw [if_pos ((cannotHaveUPP_spec _).2 hc), if_pos ((cannotHaveUPP_spec _).2 hc)]
    exact ⟨fun _ h => h.2 hc, fun _ => rfl⟩
  · rw [if_neg (mt (cannotHaveUPP_spec _).1 hc), if_neg (mt (cannotHaveUPP_spec _).1 hc), userinfoEncode_eq hv,
      userinfoEncode_eq (by rw [dropTabs_eq]; exact isStr_dropTabs hv)]
    constructor
    · rintro h ⟨h1, -⟩
      injection h with _ h
      injection h with h
      injection h with _ _ h
      exact userinfoEncode_tabs v h1 h
    · intro h
      rw [dropTabs_noTab fun h1 => h ⟨h1, hc⟩]

theorem port_tabs (env : Env) (o : URLObj) (v : Str) :
    applyOp env o (.port (Spec.dropTabs v)) = applyOp env o (.port v) ↔ ¬ TabsMatter o.url (.port v) := by
  show setPort env o _ = setPort env o v ↔ _
  by_cases hc : CannotHaveUPP o.url
  · unfold setPort
    rw [if_pos ((cannotHaveUPP_spec _).2 hc), if_pos ((cannotHaveUPP_spec _).2 hc)]
    exact ⟨fun _ h => h.2.2.2 hc, fun _ => rfl⟩
  · have hc' : o.url.cannotHaveUPP = false := by
      rw [← cannotHaveUPP_spec] at hc
      simpa using hc
    by_cases hv : v = []
    · subst hv
      exact ⟨fun _ h => h.1 rfl, fun _ => rfl⟩
    · rw [setPort_eq env o v hc' hv]
      by_cases hd : Spec.dropTabs v = []
      · rw [hd]
        have e1 : setPort env o [] = (.ok (), { o with url := { o.url with port := none } }) := by
          unfold setPort
          rw [hc']
          rfl
        have e2 : removeTabNewline v = [] := by rw [← dropTabs_eq, hd]
        rw [e1, e2]
        show (Except.ok (), _) = (Except.ok (), o) ↔ _
        constructor
        · rintro h ⟨-, -, h1, -⟩
          injection h with _ h
          exact h1 (by rw [← h])
        · intro h
          have hp : o.url.port = none := Classical.not_not.1 fun hp => h ⟨hv, hd, hp, hc⟩
          rw [← hp]
      · rw [setPort_eq env o _ hc' hd, dropTabs_eq, removeTabNewline_idem]
        exact ⟨fun _ h => hd h.2.1, fun _ => rfl⟩

theorem search_tabs (env : Env) (o : URLObj) (v : Str) :
    applyOp env o (.search (Spec.dropTabs v)) = applyOp env o (.search v) ↔ ¬ TabsMatter o.url (.search v) := by
  show setSearch env o _ = setSearch env o v ↔ ¬ MarkBehindTab c!"?" v
  constructor
  · intro h hm
    obtain ⟨hv, hd | ⟨l, h1, h2, h3⟩⟩ := mark_behind (by decide) hm
    · rw [hd, setSearch_eq env o v hv] at h
      have := congrArg (fun x : SetOut => x.2.url.query) h
      have e : (setSearch env o []).2.url.query = none := (stripOpaque_query _).1
      dsimp only at this
      rw [e] at this
      cases this
    · rw [setSearch_eq env o v hv, setSearch_eq env o _ (by rw [h1]; simp), h2, h3] at h
      injection h with _ h
      injection h with h
      injection h with _ _ _ _ _ _ h
      injection h with h
      unfold encodeQuery at h
      rw [ite_self] at h
      exact encode_front _ (by decide) l h.symm
  · intro h
    by_cases hv : v = []
    · subst hv; rfl
    · obtain ⟨h1, h2⟩ := mark_tabs (by decide) h hv
      rw [setSearch_eq env o v hv, setSearch_eq env o _ h1, h2]

theorem hash_tabs (env : Env) (o : URLObj) (v : Str) :
    applyOp env o (.hash (Spec.dropTabs v)) = applyOp env o (.hash v) ↔ ¬ TabsMatter o.url (.hash v) := by
  show setHash env o _ = setHash env o v ↔ ¬ MarkBehindTab c!"#" v
  constructor
  · intro h hm
    obtain ⟨hv, hd | ⟨l, h1, h2, h3⟩⟩ := mark_behind (by decide) hm
    · rw [hd, setHash_eq env o v hv] at h
      have := congrArg (fun x : SetOut => x.2.url.fragment) h
      have e : (setHash env o []).2.url.fragment = none := (stripOpaque_query _).2
      dsimp only at this
      rw [e] at this
      cases this
    · rw [setHash_eq env o v hv, setHash_eq env o _ (by rw [h1]; simp), h2, h3] at h
      injection h with _ h
      injection h with h
      injection h with _ _ _ _ _ _ _ h
      injection h with h
      exact encode_front _ (by decide) l h.symm
  · intro h
    by_cases hv : v = []
    · subst hv; rfl
    · obtain ⟨h1, h2⟩ := mark_tabs (by decide) h hv
      rw [setHash_eq env o v hv, setHash_eq env o _ h1, h2]

/-- C93. An assignment does the same without the tabs and newlines in the text, unless they are in credentials, make the difference
between an empty and a nonempty text (for `port`, `search`, `hash`), or hide the "?" or "#" in front; and then it never does the same. -/
theorem C93_exact (env : Env) (o : URLObj) (op : Op) (hop : Assignment op) :
    applyOp env o (withoutTabs op) = applyOp env o op ↔ ¬ TabsMatter o.url op := by
  cases op with
  | href v => exact ⟨fun _ h => h, fun _ => (C93_never env o v).1⟩
  | protocol v => exact ⟨fun _ h => h, fun _ => (C93_never env o v).2.1⟩
  | host v => exact ⟨fun _ h => h, fun _ => (C93_never env o v).2.2.1⟩
  | hostname v => exact ⟨fun _ h => h, fun _ => (C93_never env o v).2.2.2.1⟩
  | pathname v => exact ⟨fun _ h => h, fun _ => (C93_never env o v).2.2.2.2⟩
  | username v => exact username_tabs env o v hop
  | password v => exact password_tabs env o v hop
  | port v => exact port_tabs env o v
  | search v => exact search_tabs env o v
  | hash v => exact hash_tabs env o v
  | spAppend => exact hop.elim
  | spDelete => exact hop.elim
  | spSet => exact hop.elim
  | spSort => exact hop.elim

-- a newline in the middle of a query does not count
example : applyOp exEnv exStart (.search u!"?a\n=b") = applyOp exEnv exStart (.search u!"?a=b") := by
  refine ((C93_exact exEnv exStart (.search u!"?a\n=b") (show IsStr _ by decide)).2 ?_).symm
  rintro ⟨d, t, h, hd, -⟩
  cases h
  exact absurd hd (by decide)

-- but one in front of the "?" does
example : applyOp exEnv exStart (.search u!"\n?a") ≠ applyOp exEnv exStart (.search u!"?a") := by
  intro h
  exact (C93_exact exEnv exStart (.search u!"\n?a") (show IsStr _ by decide)).1 h.symm
    ⟨10, u!"?a", rfl, by decide, fun x hx => by cases hx; rfl⟩

example : (applyOp exEnv exStart (.search u!"\n?a")).2.url.query = some u!"?a" ∧
    (applyOp exEnv exStart (.search u!"?a")).2.url.query = some u!"a" := by decide +kernel

-- a tab is not the empty port: the port stays
example : (applyOp exEnv (applyOp exEnv exStart (.port u!"81")).2 (.port u!"\t")).2.url.port = some 81 ∧
    (applyOp exEnv (applyOp exEnv exStart (.port u!"81")).2 (.port [])).2.url.port = none := by decide +kernel

-- credentials
example : applyOp exEnv exStart (.username u!"a\tb") ≠ applyOp exEnv exStart (.username u!"ab") := by
  intro h
  exact (C93_exact exEnv exStart (.username u!"a\tb") (show IsStr _ by decide)).1 h.symm
    ⟨⟨9, by decide, by decide⟩, by simp [CannotHaveUPP, exStart]⟩

end Urlstd.Props
