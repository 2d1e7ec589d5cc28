/-
Performing an operation a second time, and assigning after assigning.
-/
import Verif.Lemmas.SetterFrame
import Verif.Lemmas.Params

set_option linter.unusedSimpArgs false
set_option linter.unusedVariables false

namespace Urlstd

/-! ### `potentially_rstrip_from_opaque_path` -/

theorem dropWhile_twice (p : Nat → Bool) (l : Str) : (l.dropWhile p).dropWhile p = l.dropWhile p := by
  induction l with
  | nil => rfl
  | cons c cs ih =>
    rw [List.dropWhile_cons]
    split
    · exact ih
    · rename_i h
      rw [List.dropWhile_cons, if_neg h]

theorem rstrip_fields (u : Rec) : (potentiallyRstrip u).fragment = u.fragment ∧ (potentiallyRstrip u).query = u.query := by
  unfold potentiallyRstrip
  split <;> exact ⟨rfl, rfl⟩

theorem rstrip_list {u : Rec} {l : List Str} (h : u.path = .list l) : potentiallyRstrip u = u := by
  unfold potentiallyRstrip
  split
  · rename_i hp _ _
    rw [h] at hp
    cases hp
  · rfl

theorem rstrip_opaque {u : Rec} {s : Str} (hp : u.path = .opaque s) (hf : u.fragment = none) (hq : u.query = none) :
    potentiallyRstrip u = { u with path := .opaque (s.reverse.dropWhile fun c => isPySpace c || (0x1C ≤ c && c ≤ 0x1F)).reverse } := by
  unfold potentiallyRstrip
  rw [hp, hf, hq]

theorem rstrip_other {u : Rec} (h : ∀ s, u.path = .opaque s → u.fragment = none → u.query ≠ none) : potentiallyRstrip u = u := by
  unfold potentiallyRstrip
  split
  · next s hp hf hq => exact absurd hq (h s hp hf)
  · rfl

theorem rstrip_twice (u : Rec) : potentiallyRstrip (potentiallyRstrip u) = potentiallyRstrip u := by
  by_cases h : ∀ s, u.path = .opaque s → u.fragment = none → u.query ≠ none
  · rw [rstrip_other h, rstrip_other h]
  · simp only [not_forall] at h
    obtain ⟨s, hp, hf, hq⟩ := h
    rw [rstrip_opaque hp hf (by simpa using hq)]
    rw [rstrip_opaque (u := { u with path := .opaque _ }) rfl hf (by simpa using hq)]
    rw [List.reverse_reverse, dropWhile_twice]

/-- a field that is already null may be set to null again -/
theorem rstrip_set_fragment {u : Rec} (h : u.fragment = none) : ({ potentiallyRstrip u with fragment := none } : Rec) = potentiallyRstrip u := by
  have := (rstrip_fields u).1
  rw [h] at this
  generalize hv : potentiallyRstrip u = v at this
  rw [← this]

theorem rstrip_set_query {u : Rec} (h : u.query = none) : ({ potentiallyRstrip u with query := none } : Rec) = potentiallyRstrip u := by
  have := (rstrip_fields u).2
  rw [h] at this
  generalize hv : potentiallyRstrip u = v at this
  rw [← this]

/-! ### One operation twice -/

theorem hash_twice (env : Env) (o : URLObj) (v : Str) : setHash env (setHash env o v).2 v = setHash env o v := by
  by_cases hv : v = []
  · subst hv
    show ((.ok (), { o with url := potentiallyRstrip { potentiallyRstrip { o.url with fragment := none } with fragment := none } }) : SetOut) =
      (.ok (), { o with url := potentiallyRstrip { o.url with fragment := none } })
    rw [rstrip_set_fragment (show ({ o.url with fragment := none } : Rec).fragment = none from rfl), rstrip_twice]
  · rw [setHash_eq env o v hv, setHash_eq env _ v hv]

theorem encodeQuery_congr {u w : Rec} (h : u.scheme = w.scheme) (t : Str) : encodeQuery .utf8 u t = encodeQuery .utf8 w t := by
  unfold encodeQuery Rec.isSpecial
  rw [h]

theorem search_twice (env : Env) (o : URLObj) (v : Str) : setSearch env (setSearch env o v).2 v = setSearch env o v := by
  by_cases hv : v = []
  · subst hv
    show ((.ok (), ⟨potentiallyRstrip { potentiallyRstrip { o.url with query := none } with query := none },
        spOfQuery (potentiallyRstrip { potentiallyRstrip { o.url with query := none } with query := none }).query⟩) : SetOut) =
      (.ok (), ⟨potentiallyRstrip { o.url with query := none }, spOfQuery (potentiallyRstrip { o.url with query := none }).query⟩)
    rw [rstrip_set_query (show ({ o.url with query := none } : Rec).query = none from rfl), rstrip_twice]
  · rw [setSearch_eq env o v hv, setSearch_eq env _ v hv]
    rfl

theorem pathname_twice (env : Env) (o : URLObj) (v : Str) :
    setPathname env (setPathname env o v).2 v = setPathname env o v := by
  cases ho : o.url.hasOpaquePath with
  | true =>
    have : setPathname env o v = (.ok (), o) := by unfold setPathname; rw [if_pos ho]
    rw [this]
    exact this
  | false =>
    rw [setPathname_eq env o v ho, setPathname_eq env _ v rfl]
    rfl

theorem portOut_cases (env : Env) (u : Rec) (d : Str) :
    (∀ w : Rec, w.scheme = u.scheme → portOut env w d = ((portOut env u d).1, w)) ∨
      ∃ p, ∀ w : Rec, w.scheme = u.scheme → portOut env w d = (.ok (), { w with port := p }) := by
  unfold portOut
  by_cases hd : d.isEmpty = true
  · left; intro w _; rw [if_pos hd, if_pos hd]
  · simp only [if_neg hd]
    cases pyInt env 10 d with
    | none => left; intro w _; rfl
    | some v =>
      dsimp only
      by_cases hp : v.toNat > 0xFFFF
      · left; intro w _; rw [if_pos hp, if_pos hp]
      · right
        refine ⟨if isDefaultPort u.scheme v.toNat then none else some v.toNat, fun w hw => ?_⟩
        rw [if_neg hp, hw]

theorem upp_port (u : Rec) (p : Option Nat) : ({ u with port := p } : Rec).cannotHaveUPP = u.cannotHaveUPP := rfl

theorem port_twice (env : Env) (o : URLObj) (v : Str) : setPort env (setPort env o v).2 v = setPort env o v := by
  cases hu : o.url.cannotHaveUPP with
  | true =>
    have : setPort env o v = (.ok (), o) := by unfold setPort; rw [if_pos hu]
    rw [this]
    exact this
  | false =>
    by_cases hv : v = []
    · subst hv
      unfold setPort
      simp [hu, upp_port]
    · have e := setPort_eq env o v hu hv
      rcases portOut_cases env.quiet o.url ((removeTabNewline v).takeWhile isDigit) with h | ⟨p, h⟩
      · rw [h _ rfl] at e
        rw [e]
        exact e
      · rw [h _ rfl] at e
        rw [e, setPort_eq env _ v (by exact hu) hv]
        dsimp only
        rw [h { o.url with port := p } rfl]

theorem overrideScheme_self {w : Rec} {sc : Str} (hs : w.scheme = sc)
    (hp : ∀ p, w.port = some p → (p != 0 && isDefaultPort sc p) = false) : overrideScheme w sc = w := by
  subst hs
  unfold overrideScheme
  split
  · rfl
  · dsimp only
    split
    · next p h => rw [if_neg (by rw [hp p h]; simp)]
    · rfl

theorem overrideScheme_twice (u : Rec) (sc : Str) : overrideScheme (overrideScheme u sc) sc = overrideScheme u sc := by
  by_cases h : schemeRefused u sc = true
  · have : overrideScheme u sc = u := by unfold overrideScheme; rw [if_pos h]
    rw [this, this]
  · apply overrideScheme_self
    · unfold overrideScheme
      rw [if_neg h]
      dsimp only
      split
      · split <;> rfl
      · rfl
    · unfold overrideScheme
      rw [if_neg h]
      dsimp only
      intro p hp
      split at hp
      · next q hq =>
        split at hp
        · cases hp
        · next hn =>
          change u.port = some p at hp
          rw [hq] at hp
          cases hp
          simpa using hn
      · next hq =>
        change u.port = some p at hp
        rw [hq] at hp
        cases hp

theorem protocol_twice (env : Env) (o : URLObj) (v : Str) :
    setProtocol env (setProtocol env o v).2 v = setProtocol env o v := by
  rw [setProtocol_eq env o v]
  cases h : takeScheme (removeTabNewline (v ++ u!":")) with
  | none => dsimp only; rw [setProtocol_eq env o v, h]
  | some x =>
    dsimp only
    rw [setProtocol_eq, h]
    dsimp only
    rw [overrideScheme_twice]

/-- the host and its port have no influence on what the host setters make of a text, except for an empty host -/
theorem hostEndOut_twice (env : Env) (u : Rec) (b : Str) :
    hostEndOut env (hostEndOut env u b).2 b = hostEndOut env u b := by
  unfold hostEndOut
  by_cases h1 : (u.isSpecial && b.isEmpty) = true
  · rw [if_pos h1]; dsimp only; rw [if_pos h1]
  · rw [if_neg h1]
    by_cases h2 : (b.isEmpty && (u.includesCredentials || u.portTruthy)) = true
    · rw [if_pos h2]; dsimp only; rw [if_neg h1, if_pos h2]
    · rw [if_neg h2]
      cases hh : (hostParse env b (!u.isSpecial)).res with
      | error e => dsimp only; rw [if_neg h1, if_neg h2, hh]
      | ok h =>
        dsimp only
        rw [if_neg (show ¬ (({ u with host := some h } : Rec).isSpecial && b.isEmpty) = true from h1),
          if_neg (show ¬ (b.isEmpty && (({ u with host := some h } : Rec).includesCredentials ||
            ({ u with host := some h } : Rec).portTruthy)) = true from h2)]
        rw [show (hostParse env b (!({ u with host := some h } : Rec).isSpecial)).res = .ok h from hh]

theorem hostOut_twice (env : Env) (ov : PState) (u : Rec) (b r : Str) :
    hostOut env ov (hostOut env ov u b r).2 b r = hostOut env ov u b r := by
  unfold hostOut
  cases r with
  | nil => exact hostEndOut_twice env u b
  | cons c cs =>
    dsimp only
    by_cases hc : c = c!":"
    · rw [if_pos hc, if_pos hc]
      by_cases hb : b.isEmpty = true
      · rw [if_pos hb, if_pos hb]
      · rw [if_neg hb, if_neg hb]
        by_cases ho : ov = .hostname
        · rw [if_pos ho, if_pos ho]
        · rw [if_neg ho, if_neg ho]
          cases hh : (hostParse env b (!u.isSpecial)).res with
          | error e => dsimp only; rw [hh]
          | ok h =>
            dsimp only
            rcases portOut_cases env { u with host := some h } (cs.takeWhile isDigit) with hp | ⟨p, hp⟩
            · rw [hp _ rfl]
              dsimp only
              rw [show (hostParse env b (!({ u with host := some h } : Rec).isSpecial)).res = .ok h from hh]
              dsimp only
              rw [hp _ rfl]
            · rw [hp _ rfl]
              dsimp only
              rw [show (hostParse env b (!({ u with host := some h, port := p } : Rec).isSpecial)).res = .ok h from hh]
              dsimp only
              rw [hp { u with host := some h, port := p } rfl]
    · rw [if_neg hc, if_neg hc]
      exact hostEndOut_twice env u b

theorem fileHostOut_twice (env : Env) (u : Rec) (b : Str) :
    fileHostOut env (fileHostOut env u b).2 b = fileHostOut env u b := by
  unfold fileHostOut
  by_cases hb : b.isEmpty = true
  · rw [if_pos hb, if_pos hb]
  · rw [if_neg hb, if_neg hb]
    cases hh : (hostParse env b (!u.isSpecial)).res with
    | error e => dsimp only; rw [hh]
    | ok h =>
      dsimp only
      rw [show (hostParse env b (!({ u with host := some (if h = .str u!"localhost" then .str [] else h) } : Rec).isSpecial)).res =
        .ok h from hh]

theorem hostSetOut_scheme (env : Env) (ov : PState) (u : Rec) (t : Str) :
    (hostSetOut env ov u t).2.scheme = u.scheme ∧ (hostSetOut env ov u t).2.path = u.path := by
  have h := (hostSetOut_agree env ov u t).1
  exact ⟨(h .scheme (by simp)).symm, (h .path (by simp)).symm⟩

theorem hostSetOut_twice (env : Env) (ov : PState) (u : Rec) (t : Str) :
    hostSetOut env ov (hostSetOut env ov u t).2 t = hostSetOut env ov u t := by
  have hs := (hostSetOut_scheme env ov u t).1
  generalize hw : (hostSetOut env ov u t).2 = w at hs
  have hsp : w.isSpecial = u.isSpecial := by unfold Rec.isSpecial; rw [hs]
  unfold hostSetOut at hw ⊢
  rw [hs, hsp]
  by_cases hf : u.scheme = u!"file"
  · rw [if_pos hf] at hw ⊢
    rw [if_pos hf, ← hw]
    exact fileHostOut_twice ..
  · rw [if_neg hf] at hw ⊢
    rw [if_neg hf, ← hw]
    exact hostOut_twice ..

theorem host_twice (env : Env) (o : URLObj) (v : Str) :
    setHost env (setHost env o v).2 v = setHost env o v ∧ setHostname env (setHostname env o v).2 v = setHostname env o v := by
  cases ho : o.url.hasOpaquePath with
  | true =>
    have h1 : setHost env o v = (.ok (), o) := by unfold setHost; rw [if_pos ho]
    have h2 : setHostname env o v = (.ok (), o) := by unfold setHostname; rw [if_pos ho]
    rw [h1, h2]
    exact ⟨h1, h2⟩
  | false =>
    have hp : ∀ ov, (hostSetOut env.quiet ov o.url (removeTabNewline v)).2.hasOpaquePath = false := by
      intro ov
      unfold Rec.hasOpaquePath at ho ⊢
      rw [(hostSetOut_scheme ..).2]
      exact ho
    constructor
    · rw [setHost_eq env o v ho]
      dsimp only
      rw [setHost_eq env _ v (hp .host)]
      dsimp only
      rw [hostSetOut_twice]
    · rw [setHostname_eq env o v ho]
      dsimp only
      rw [setHostname_eq env _ v (hp .hostname)]
      dsimp only
      rw [hostSetOut_twice]

theorem href_twice (env : Env) (o : URLObj) (v : Str) : setHref env (setHref env o v).2 v = setHref env o v := by
  unfold setHref
  cases h : (basicParse env.quiet v).toExcept with
  | ok r => rfl
  | error e => rfl

theorem setUsername_ok {o : URLObj} (v : Str) (hu : o.url.cannotHaveUPP = false) :
    setUsername o v = (.ok (), { o with url := { o.url with username := utf8PercentEncode v safeUserinfo } }) := by
  unfold setUsername
  rw [hu]
  rfl

theorem setPassword_ok {o : URLObj} (v : Str) (hu : o.url.cannotHaveUPP = false) :
    setPassword o v = (.ok (), { o with url := { o.url with password := utf8PercentEncode v safeUserinfo } }) := by
  unfold setPassword
  rw [hu]
  rfl

theorem userinfo_again (o : URLObj) (v w : Str) :
    setUsername (setUsername o v).2 w = setUsername o w ∧ setPassword (setPassword o v).2 w = setPassword o w := by
  cases hu : o.url.cannotHaveUPP with
  | true =>
    have h1 : setUsername o v = (.ok (), o) := by unfold setUsername; rw [if_pos hu]
    have h2 : setPassword o v = (.ok (), o) := by unfold setPassword; rw [if_pos hu]
    rw [h1, h2]
    exact ⟨rfl, rfl⟩
  | false =>
    constructor
    · rw [setUsername_ok v hu, setUsername_ok w hu, setUsername_ok w (by exact hu)]
    · rw [setPassword_ok v hu, setPassword_ok w hu, setPassword_ok w (by exact hu)]

/-! ### Another value -/

theorem hash_again (env : Env) (o : URLObj) (v w : Str) (h : v ≠ [] ∨ w = [] ∨ ∃ l, o.url.path = .list l) :
    setHash env (setHash env o v).2 w = setHash env o w := by
  have e0 : ∀ o : URLObj, setHash env o [] = (.ok (), { o with url := potentiallyRstrip { o.url with fragment := none } }) := fun _ => rfl
  by_cases hv : v = []
  · subst hv
    by_cases hw : w = []
    · subst hw; exact hash_twice env o []
    · obtain ⟨l, hl⟩ := (h.resolve_left (by simp)).resolve_left hw
      rw [e0, setHash_eq env _ w hw, setHash_eq env o w hw, rstrip_list (u := { o.url with fragment := none }) hl]
  · rw [setHash_eq env o v hv]
    by_cases hw : w = []
    · subst hw; rw [e0, e0]
    · rw [setHash_eq env _ w hw, setHash_eq env _ w hw]

theorem search_again (env : Env) (o : URLObj) (v w : Str) (h : v ≠ [] ∨ w = [] ∨ ∃ l, o.url.path = .list l) :
    setSearch env (setSearch env o v).2 w = setSearch env o w := by
  have e0 : ∀ o : URLObj, setSearch env o [] = (.ok (), ⟨potentiallyRstrip { o.url with query := none },
      spOfQuery (potentiallyRstrip { o.url with query := none }).query⟩) := fun _ => rfl
  by_cases hv : v = []
  · subst hv
    by_cases hw : w = []
    · subst hw; exact search_twice env o []
    · obtain ⟨l, hl⟩ := (h.resolve_left (by simp)).resolve_left hw
      rw [e0, setSearch_eq env _ w hw, setSearch_eq env o w hw, rstrip_list (u := { o.url with query := none }) hl]
      rfl
  · rw [setSearch_eq env o v hv]
    by_cases hw : w = []
    · subst hw; rw [e0, e0]
    · rw [setSearch_eq env _ w hw, setSearch_eq env _ w hw]
      rfl

theorem pathname_again (env : Env) (o : URLObj) (v w : Str) :
    setPathname env (setPathname env o v).2 w = setPathname env o w := by
  cases ho : o.url.hasOpaquePath with
  | true =>
    have : setPathname env o v = (.ok (), o) := by unfold setPathname; rw [if_pos ho]
    rw [this]
  | false =>
    rw [setPathname_eq env o v ho, setPathname_eq env _ w rfl, setPathname_eq env _ w ho]
    rfl

theorem href_again (env : Env) (o : URLObj) (v w : Str) (h : (setHref env o w).1 = .ok ()) :
    setHref env (setHref env o v).2 w = setHref env o w := by
  unfold setHref at *
  cases hw : (basicParse env.quiet w).toExcept with
  | ok r => rfl
  | error e => rw [hw] at h; cases h

/-- the digits that `port` reads give a port -/
def PortTaken (env : Env) (w : Str) : Prop :=
  w = [] ∨ ∃ n : Int, pyInt env 10 ((removeTabNewline w).takeWhile isDigit) = some n ∧
    (removeTabNewline w).takeWhile isDigit ≠ [] ∧ n.toNat ≤ 0xFFFF

theorem port_again (env : Env) (o : URLObj) (v w : Str) (h : PortTaken env.quiet w) :
    setPort env (setPort env o v).2 w = setPort env o w := by
  cases hu : o.url.cannotHaveUPP with
  | true =>
    have : setPort env o v = (.ok (), o) := by unfold setPort; rw [if_pos hu]
    rw [this]
  | false =>
    have key : ∀ p, setPort env { o with url := { o.url with port := p } } w = setPort env o w := by
      intro p
      have hu' : ({ o.url with port := p } : Rec).cannotHaveUPP = false := hu
      rcases h with rfl | ⟨n, h1, h2, h3⟩
      · unfold setPort
        dsimp only
        rw [hu, hu']
        rfl
      · have hw : w ≠ [] := by rintro rfl; exact h2 rfl
        rw [setPort_eq env o w hu hw, setPort_eq env { o with url := { o.url with port := p } } w hu' hw]
        unfold portOut
        rw [h1, if_neg (by simpa using h2), if_neg (by simpa using h2)]
        dsimp only
        have hg : ¬ n.toNat > 0xFFFF := by omega
        rw [if_neg hg, if_neg hg]
    have hp : ∃ p, (setPort env o v).2 = { o with url := { o.url with port := p } } := by
      by_cases hv : v = []
      · refine ⟨none, ?_⟩
        subst hv
        unfold setPort
        rw [hu]
        rfl
      · rw [setPort_eq env o v hu hv]
        rcases portOut_cases env.quiet o.url ((removeTabNewline v).takeWhile isDigit) with h | ⟨p, h⟩
        · rw [h _ rfl]; exact ⟨o.url.port, rfl⟩
        · rw [h _ rfl]; exact ⟨p, rfl⟩
    obtain ⟨p, hp⟩ := hp
    rw [hp, key]

/-! ### Lists of pairs -/

theorem spSet_again (l : Params) (n : Str) (v w : ParamVal) : spSet (spSet l n v) n w = spSet l n w := by
  rcases split_first (decName n) l with h | ⟨pre, x, post, rfl, h⟩
  · rw [spSet_none v h, spSet_none w h, spSet_some _ [] w h]
    rfl
  · rw [spSet_some x post v h, spSet_some x post w h, spSet_some _ _ w h, List.filter_filter]
    simp

theorem spDelete_again (l : Params) (n : Str) (v : Option ParamVal) : spDelete (spDelete l n v) n v = spDelete l n v := by
  rw [spDelete_eq, spDelete_eq, List.filter_filter]
  simp

theorem spSort_again (l : Params) : spSort (spSort l) = spSort l :=
  sorted_unique (spSort_sorted _) (spSort_sorted _) fun k => spSort_filter k _

theorem spUpdate_nil {l : Params} (h : spToStr l = []) (u : Rec) : spUpdate l u = potentiallyRstrip { u with query := none } := by
  unfold spUpdate
  rw [h]
  rfl

theorem spUpdate_cons {l : Params} (h : spToStr l ≠ []) (u : Rec) : spUpdate l u = { u with query := some (spToStr l) } := by
  unfold spUpdate
  dsimp only
  rw [if_neg (by simpa using h)]

theorem spUpdate_again (l m : Params) (u : Rec) (h : spToStr m ≠ [] ∨ spToStr l = []) :
    spUpdate l (spUpdate m u) = spUpdate l u := by
  by_cases hm : spToStr m = []
  · have hl := h.resolve_left (absurd hm)
    rw [spUpdate_nil hm, spUpdate_nil hl, spUpdate_nil hl]
    rw [rstrip_set_query (show ({ u with query := none } : Rec).query = none from rfl), rstrip_twice]
  · rw [spUpdate_cons hm]
    by_cases hl : spToStr l = []
    · rw [spUpdate_nil hl, spUpdate_nil hl]
    · rw [spUpdate_cons hl, spUpdate_cons hl]

theorem spMutate_twice (o : URLObj) (f : Params → Params) (hf : f (f o.params) = f o.params) :
    spMutate (spMutate o (f o.params)).2 (f (spMutate o (f o.params)).2.params) = spMutate o (f o.params) := by
  unfold spMutate
  dsimp only
  rw [hf, spUpdate_again]
  by_cases h : spToStr (f o.params) = []
  · exact .inr h
  · exact .inl h

end Urlstd
