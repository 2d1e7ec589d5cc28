/-
Copying the attributes of one URL to another (C104).
-/
import Verif.Lemmas.Own
import Verif.Props.OwnValue

set_option linter.unusedSimpArgs false

namespace Urlstd

open Spec (IsStr)
open Props (Attr)

variable {env : Env} {P : Bool → Host → Prop}

/-- a host that is neither null nor empty -/
def HasHost (u : Rec) : Prop := u.host ≠ none ∧ u.host ≠ some (.str [])

/-- what the attributes of a record show of it -/
def copyRec (u : Rec) : Rec := { u.canon with query := ownShown u.query, fragment := ownShown u.fragment }

theorem hostWF_canon {m : Bool} {x : Host} (h : HostWF env m x) : HostWF env m x.canon := by
  cases x <;> exact h

theorem canon_host (u : Rec) : u.canon.host = u.host.map Host.canon := by
  unfold Rec.canon
  cases u.host <;> rfl

theorem canon_ne_empty {x : Host} (h : x ≠ .str []) : x.canon ≠ .str [] := by
  cases x with
  | str s => exact h
  | ipv4 n => intro e; cases e
  | ipv6 a => intro e; cases e

theorem HasHost.copy {u : Rec} (h : HasHost u) : HasHost (copyRec u) := by
  unfold HasHost copyRec
  dsimp only
  rw [canon_host]
  obtain ⟨x, hx⟩ := Option.ne_none_iff_exists'.1 h.1
  have h2 := h.2
  rw [hx] at h2 ⊢
  refine ⟨by simp, fun e => ?_⟩
  exact canon_ne_empty (x := x) (fun e => h2 (by rw [e])) (by simpa using e)

theorem HasHost.list {k : Bool} {u : Rec} (h : HasHost u) (hw : WF k P u) : ∃ p, u.path = .list p ∧ SegsOK k u.scheme p ∧
    (u.isSpecial = true → p ≠ []) := by
  have := hw.path
  unfold PathWF at this
  cases hp : u.path with
  | list p => rw [hp] at this; exact ⟨p, rfl, this.1, this.2.1⟩
  | «opaque» s => rw [hp] at this; exact absurd this.2 h.1

/-- a record put together from two records of the same scheme -/
theorem wf_mixed {u t r : Rec} (hu : WF true P u) (ht : WF true P t) (hs : t.scheme = u.scheme) (hf : u.scheme ≠ u!"file")
    (nu : HasHost u) (nt : HasHost t) (r0 : r.scheme = u.scheme) (r1 : r.username = u.username ∨ r.username = t.username)
    (r2 : r.password = u.password ∨ r.password = t.password) (r3 : r.host = u.host ∨ r.host = t.host)
    (r4 : r.port = u.port ∨ r.port = t.port) (r5 : r.path = u.path ∨ r.path = t.path)
    (r6 : r.query = u.query ∨ r.query = t.query) (r7 : r.fragment = u.fragment ∨ r.fragment = t.fragment) :
    WF true P r ∧ HasHost r := by
  have s1 : r.isSpecial = u.isSpecial := by unfold Rec.isSpecial; rw [r0]
  have s2 : t.isSpecial = u.isSpecial := by unfold Rec.isSpecial; rw [hs]
  have nr : HasHost r := by
    unfold HasHost
    rcases r3 with e | e <;> rw [e]
    · exact nu
    · exact nt
  refine ⟨⟨⟨?_, ?_, ?_, ?_, ?_, ?_, ?_, ?_, ?_⟩, ?_, ?_, ?_, ?_⟩, nr⟩
  · rw [r0]; exact hu.auth.scheme
  · rcases r1 with e | e <;> rw [e]
    · exact hu.auth.user
    · exact ht.auth.user
  · rcases r2 with e | e <;> rw [e]
    · exact hu.auth.pass
    · exact ht.auth.pass
  · rw [r0]
    rcases r4 with e | e <;> rw [e]
    · exact hu.auth.port
    · rw [← hs]; exact ht.auth.port
  · rw [s1]
    rcases r3 with e | e <;> rw [e]
    · exact hu.auth.host
    · rw [← s2]; exact ht.auth.host
  · exact fun _ => ⟨nr.1, fun e => absurd e nr.2⟩
  · exact fun e => absurd e nr.1
  · rintro (e | e | e)
    · exact absurd e nr.1
    · exact absurd e nr.2
    · exact absurd (r0 ▸ e) hf
  · exact fun _ e => absurd (r0 ▸ e) hf
  · obtain ⟨p, hp, h1, h2⟩ := nu.list hu
    obtain ⟨q, hq, h3, h4⟩ := nt.list ht
    unfold PathWF
    rw [s1, r0]
    rcases r5 with e | e <;> rw [e]
    · rw [hp]; exact ⟨h1, h2, fun e => absurd e nr.1⟩
    · rw [hq]; exact ⟨hs ▸ h3, s2 ▸ h4, fun e => absurd e nr.1⟩
  · unfold QueryWF
    rw [s1]
    rcases r6 with e | e <;> rw [e]
    · exact hu.query
    · rw [← s2]; exact ht.query
  · unfold FragWF
    rcases r7 with e | e <;> rw [e]
    · exact hu.frag
    · exact ht.frag
  · obtain ⟨p, hp, _⟩ := nu.list hu
    obtain ⟨q, hq, _⟩ := nt.list ht
    intro s e
    rcases r5 with e' | e' <;> rw [e'] at e
    · rw [hp] at e; cases e
    · rw [hq] at e; cases e

theorem copyRec_wf {u : Rec} (h : WF true (HostWF env) u) (n : HasHost u) : WF true (HostWF env) (copyRec u) := by
  obtain ⟨p, hp, h1, h2⟩ := n.list h
  have n' := n.copy
  refine ⟨⟨h.auth.scheme, h.auth.user, h.auth.pass, h.auth.port, ?_, ?_, ?_, ?_, ?_⟩, ?_, ?_, ?_, ?_⟩
  · intro x hx
    have hx : u.canon.host = some x := hx
    rw [canon_host] at hx
    obtain ⟨y, hy, rfl⟩ := Option.map_eq_some_iff.1 hx
    exact hostWF_canon (h.auth.host y hy)
  · exact fun hs => ⟨n'.1, fun e => absurd e n'.2⟩
  · exact fun e => absurd e n'.1
  · rintro (e | e | e)
    · exact absurd e n'.1
    · exact absurd e n'.2
    · exact h.auth.loose (.inr (.inr e))
  · intro _ e e2
    have e2 : u.canon.host = _ := e2
    rw [canon_host] at e2
    obtain ⟨y, hy, e3⟩ := Option.map_eq_some_iff.1 e2
    apply h.auth.file rfl e
    rw [hy]
    cases y with
    | str s => exact congrArg some e3
    | ipv4 n => cases e3
    | ipv6 a => cases e3
  · unfold PathWF
    have : (copyRec u).path = .list p := hp
    rw [this]
    exact ⟨h1, h2, fun e => absurd e n'.1⟩
  · exact fun q hq => h.query q (ownShown_some hq)
  · exact fun q hq => h.frag q (ownShown_some hq)
  · intro s hs
    have hs : u.path = _ := hs
    rw [hp] at hs; cases hs

theorem HasHost.upp {u : Rec} (h : HasHost u) (hf : u.scheme ≠ u!"file") : u.cannotHaveUPP = false := by
  unfold Rec.cannotHaveUPP Rec.hostNoneOrEmpty
  obtain ⟨x, hx⟩ := Option.ne_none_iff_exists'.1 h.1
  have h2 := h.2
  rw [hx] at h2 ⊢
  cases x with
  | str s => cases s <;> simp_all
  | ipv4 n => simpa using hf
  | ipv6 a => simpa using hf

theorem HasHost.serialize {u : Rec} (h : HasHost u) (he : EnvOK env) (hi : IdnaOK env) (hw : WF true (HostWF env) u) :
    ∃ x, u.host = some x ∧ hostSerialize x ≠ [] ∧ (hostParse env (hostSerialize x) (!u.isSpecial)).res = .ok x.canon := by
  obtain ⟨x, hx⟩ := Option.ne_none_iff_exists'.1 h.1
  have hparse := hostParse_serialize he hi (hw.auth.host x hx)
  refine ⟨x, hx, fun h0 => h.2 ?_, hparse⟩
  rw [hx]
  rw [h0] at hparse
  simp only [hostParse, Res.ok, Except.ok.injEq] at hparse
  cases x with
  | str s => exact congrArg (some ∘ Host.str) h0
  | ipv4 n => cases hparse
  | ipv6 a => cases hparse

/-! ### One assignment -/

theorem copy_port {o p : URLObj} (he : EnvOK env) (ho : WF true P o.url) (hs : p.url.scheme = o.url.scheme)
    (hc : p.url.cannotHaveUPP = false) : setPort env p o.port = (.ok (), { p with url := { p.url with port := o.url.port } }) := by
  cases hp : o.url.port with
  | none =>
    unfold setPort URLObj.port
    rw [if_neg (by simp [hc]), hp, if_pos (by rfl)]
  | some n =>
    have hv : o.port = natDec n := by unfold URLObj.port; rw [hp]
    rw [hv, setPort_eq env p _ hc (natDec_ne_nil n), removeTabNewline_natDec, takeWhile_natDec,
      portOut_own (env := env.quiet) he (ho.auth.port n hp).1 (hs ▸ (ho.auth.port n hp).2)]

theorem copy_search {o p : URLObj} (ho : WF true P o.url) (hs : p.url.scheme = o.url.scheme) {l : List Str}
    (hl : p.url.path = .list l) : setSearch env p o.search =
      (.ok (), ⟨{ p.url with query := ownShown o.url.query }, spOfQuery (ownShown o.url.query)⟩) := by
  have hempty : o.search = [] → ownShown o.url.query = none → setSearch env p o.search =
      (.ok (), ⟨{ p.url with query := ownShown o.url.query }, spOfQuery (ownShown o.url.query)⟩) := by
    intro h1 h2
    unfold setSearch
    rw [h1, h2, if_pos (by rfl)]
    dsimp only
    rw [rstrip_list (u := { p.url with query := none }) hl]
  cases hq : o.url.query with
  | none => rw [← hq]; exact hempty (by unfold URLObj.search; rw [hq]) (by rw [hq]; rfl)
  | some q =>
    cases q with
    | nil => rw [← hq]; exact hempty (by unfold URLObj.search; rw [hq]; rfl) (by rw [hq]; rfl)
    | cons a as =>
      have hv : o.search = 63 :: a :: as := by unfold URLObj.search; rw [hq]; rfl
      have hqs : ∀ c ∈ a :: as, querySafe p.url.isSpecial c = true := by
        have := ho.query _ hq
        unfold Rec.isSpecial at this ⊢
        rwa [hs]
      have e : removeTabNewline (dropLead c!"?" (63 :: a :: as)) = a :: as := by
        show removeTabNewline (if 63 = 63 then a :: as else 63 :: a :: as) = _
        rw [if_pos rfl, noTab_print fun c hc => by have := querySafe_print (hqs c hc); omega]
      rw [hv, setSearch_eq env p _ (by simp), e, query_fixed hqs]
      rfl

theorem copy_hash {o p : URLObj} (ho : WF true P o.url) {l : List Str} (hl : p.url.path = .list l) :
    setHash env p o.hash = (.ok (), { p with url := { p.url with fragment := ownShown o.url.fragment } }) := by
  have hempty : o.hash = [] → ownShown o.url.fragment = none → setHash env p o.hash =
      (.ok (), { p with url := { p.url with fragment := ownShown o.url.fragment } }) := by
    intro h1 h2
    unfold setHash
    rw [h1, h2, if_pos (by rfl), rstrip_list (u := { p.url with fragment := none }) hl]
  cases hq : o.url.fragment with
  | none => rw [← hq]; exact hempty (by unfold URLObj.hash; rw [hq]) (by rw [hq]; rfl)
  | some q =>
    cases q with
    | nil => rw [← hq]; exact hempty (by unfold URLObj.hash; rw [hq]; rfl) (by rw [hq]; rfl)
    | cons a as =>
      have hv : o.hash = 35 :: a :: as := by unfold URLObj.hash; rw [hq]; rfl
      have hqs := ho.frag _ hq
      have e : removeTabNewline (dropLead c!"#" (35 :: a :: as)) = a :: as := by
        show removeTabNewline (if 35 = 35 then a :: as else 35 :: a :: as) = _
        rw [if_pos rfl, noTab_print fun c hc => by have := safeFragment_print (hqs c hc); omega]
      rw [hv, setHash_eq env p _ (by simp), e, fragment_fixed hqs]
      rfl

theorem copy_pathname {o p : URLObj} (ho : WF true P o.url) (hs : p.url.scheme = o.url.scheme) (no : o.url.host ≠ none)
    (np : p.url.host ≠ none) {l q : List Str} (hl : p.url.path = .list l) (hq : o.url.path = .list q) :
    setPathname env p o.pathname = (.ok (), { p with url := { p.url with path := o.url.path } }) := by
  have h1 := own_pathname (env := env) ho
  rw [setPathname_eq env o _ (by unfold Rec.hasOpaquePath; rw [hq])] at h1
  have h2 : Path.list (pathnameSegs o.url (removeTabNewline o.pathname)) = o.url.path := by
    have := congrArg (fun x => x.2.url.path) h1
    exact this
  rw [setPathname_eq env p _ (by unfold Rec.hasOpaquePath; rw [hl]), ← h2]
  have : pathnameSegs p.url (removeTabNewline o.pathname) = pathnameSegs o.url (removeTabNewline o.pathname) := by
    have e1 : p.url.host.isNone = o.url.host.isNone := by
      rw [Option.isNone_eq_false_iff.2 (Option.isSome_iff_ne_none.2 np),
        Option.isNone_eq_false_iff.2 (Option.isSome_iff_ne_none.2 no)]
    unfold pathnameSegs Rec.isSpecial
    rw [e1, hs]
  rw [this]

theorem copy_hostname {o p : URLObj} (he : EnvOK env) (hi : IdnaOK env) (ho : WF true (HostWF env.quiet) o.url)
    (hs : p.url.scheme = o.url.scheme) (hf : p.url.scheme ≠ u!"file") (no : HasHost o.url) {l : List Str} (hl : p.url.path = .list l) :
    setHostname env p o.hostname = (.ok (), { p with url := { p.url with host := o.url.canon.host } }) := by
  obtain ⟨x, hx, hne, hparse⟩ := no.serialize (env := env.quiet) he hi.quiet ho
  have hv : o.hostname = hostSerialize x := by unfold URLObj.hostname Rec.serializeHost; rw [hx]
  have hw := ho.auth.host x hx
  have hpr := hw.print
  have t2 : removeTabNewline (hostSerialize x) = hostSerialize x :=
    noTab_print fun c hc => by have := hpr c hc; omega
  have hspan := hw.text.span p.url.isSpecial [] (by simp)
  rw [List.append_nil] at hspan
  have hsp : p.url.isSpecial = o.url.isSpecial := by unfold Rec.isSpecial; rw [hs]
  have key : hostSetOut env.quiet .hostname p.url (hostSerialize x) = (.ok (), { p.url with host := o.url.canon.host }) := by
    unfold hostSetOut
    rw [if_neg hf, hspan]
    show hostEndOut env.quiet p.url (hostSerialize x) = _
    unfold hostEndOut
    have hb : (hostSerialize x).isEmpty = false := by simpa using hne
    rw [hb, if_neg (by simp), if_neg (by simp), hsp, hparse, canon_host, hx]
    rfl
  rw [setHostname_eq env p _ (by unfold Rec.hasOpaquePath; rw [hl]), hv, t2, key]

theorem copy_host {o p : URLObj} (he : EnvOK env) (hi : IdnaOK env) (ho : WF true (HostWF env.quiet) o.url)
    (hs : p.url.scheme = o.url.scheme) (hf : p.url.scheme ≠ u!"file") (no : HasHost o.url) {l : List Str} (hl : p.url.path = .list l) :
    setHost env p o.host = (.ok (), { p with url := { p.url with
      host := o.url.canon.host
      port := if o.url.port = none then p.url.port else o.url.port } }) := by
  obtain ⟨x, hx, hne, hparse⟩ := no.serialize (env := env.quiet) he hi.quiet ho
  have hv : o.host = hostSerialize x ++ o.url.serializePort := by unfold URLObj.host; rw [hx]
  have hw := ho.auth.host x hx
  have hpr := hw.print
  have t1 : removeTabNewline (hostSerialize x ++ o.url.serializePort) = hostSerialize x ++ o.url.serializePort := by
    refine noTab_print fun c hc => ?_
    rcases List.mem_append.1 hc with hc | hc
    · have := hpr c hc; omega
    · rcases port_chars _ c hc with hc | hc
      · omega
      · have := digit_print hc; omega
  have hsp : p.url.isSpecial = o.url.isSpecial := by unfold Rec.isSpecial; rw [hs]
  have hb : (hostSerialize x).isEmpty = false := by simpa using hne
  have key : hostSetOut env.quiet .host p.url (hostSerialize x ++ o.url.serializePort) = (.ok (), { p.url with
      host := o.url.canon.host
      port := if o.url.port = none then p.url.port else o.url.port }) := by
    unfold hostSetOut
    rw [if_neg hf]
    cases hp : o.url.port with
    | none =>
      have hspan := hw.text.span p.url.isSpecial [] (by simp)
      have e : o.url.serializePort = [] := by unfold Rec.serializePort; rw [hp]
      rw [e, hspan]
      show hostEndOut env.quiet p.url (hostSerialize x) = _
      unfold hostEndOut
      rw [hb, if_neg (by simp), if_neg (by simp), hsp, hparse, canon_host, hx]
      rfl
    | some n =>
      have e : o.url.serializePort = 58 :: natDec n := by unfold Rec.serializePort; rw [hp]
      rw [e, hw.text.span _ _ fun c hc => .inl (by simpa using hc.symm)]
      unfold hostOut
      dsimp only
      rw [if_pos rfl, hb, if_neg (by simp), if_neg (by simp), hsp, hparse]
      dsimp only
      rw [takeWhile_natDec, portOut_own (env := env.quiet) (u := { p.url with host := some x.canon }) he (ho.auth.port n hp).1
        (hs ▸ (ho.auth.port n hp).2), canon_host, hx, if_neg (by simp)]
      rfl
  rw [setHost_eq env p _ (by unfold Rec.hasOpaquePath; rw [hl]), hv, t1, key]

/-! ### A list of assignments -/

/-- the attributes in `S` have been copied from `t` -/
structure CopyInv (env : Env) (t : Rec) (S : List Attr) (p : URLObj) : Prop where
  wf : WF true (HostWF env) p.url
  params : p.params = spOfQuery p.url.query
  scheme : p.url.scheme = t.scheme
  has : HasHost p.url
  user : .username ∈ S → p.url.username = t.username
  pass : .password ∈ S → p.url.password = t.password
  host : .hostname ∈ S → p.url.host = t.host
  port : .port ∈ S → p.url.port = t.port
  path : .pathname ∈ S → p.url.path = t.path
  query : .search ∈ S → p.url.query = t.query
  frag : .hash ∈ S → p.url.fragment = t.fragment

theorem copy_step (he : EnvOK env) (hi : IdnaOK env) {o p : URLObj} {S : List Attr} (ho : WF true (HostWF env.quiet) o.url)
    (no : HasHost o.url) (hf : o.url.scheme ≠ u!"file") (h : CopyInv env.quiet (copyRec o.url) S p) {a : Attr} (ha : a ≠ .href) :
    ∃ q, applyOp env p (a.set (a.get o)) = (.ok (), q) ∧ CopyInv env.quiet (copyRec o.url) (a :: S) q := by
  have hs : p.url.scheme = o.url.scheme := h.scheme
  have hf' : p.url.scheme ≠ u!"file" := hs ▸ hf
  have hc := h.has.upp hf'
  obtain ⟨l, hl, _⟩ := h.has.list h.wf
  have hw := copyRec_wf ho no
  have mix := fun r => wf_mixed (r := r) h.wf hw h.scheme.symm hf' h.has no.copy
  obtain ⟨hwf, i1, i2, hhas, j1, j2, j3, j4, j5, j6, j7⟩ := h
  cases a with
  | href => exact absurd rfl ha
  | protocol =>
    refine ⟨p, ?_, ⟨hwf, i1, i2, hhas, ?_, ?_, ?_, ?_, ?_, ?_, ?_⟩⟩
    · have : o.protocol = p.protocol := by unfold URLObj.protocol; rw [hs]
      show setProtocol env p o.protocol = _
      rw [this, own_protocol env hwf]
    all_goals simp only [List.mem_cons, reduceCtorEq, false_or]; assumption
  | username =>
    refine ⟨{ p with url := { p.url with username := o.url.username } }, ?_, ?_⟩
    · show setUsername p o.url.username = _
      unfold setUsername
      rw [if_neg (by simp [hc]), userinfo_fixed ho.auth.user]
    · obtain ⟨w, n⟩ := mix { p.url with username := o.url.username } rfl (.inr rfl) (.inl rfl) (.inl rfl) (.inl rfl) (.inl rfl) (.inl rfl) (.inl rfl)
      refine ⟨w, i1, i2, n, fun _ => rfl, ?_, ?_, ?_, ?_, ?_, ?_⟩
      all_goals simp only [List.mem_cons, reduceCtorEq, false_or]; assumption
  | password =>
    refine ⟨{ p with url := { p.url with password := o.url.password } }, ?_, ?_⟩
    · show setPassword p o.url.password = _
      unfold setPassword
      rw [if_neg (by simp [hc]), userinfo_fixed ho.auth.pass]
    · obtain ⟨w, n⟩ := mix { p.url with password := o.url.password } rfl (.inl rfl) (.inr rfl) (.inl rfl) (.inl rfl) (.inl rfl) (.inl rfl) (.inl rfl)
      refine ⟨w, i1, i2, n, ?_, fun _ => rfl, ?_, ?_, ?_, ?_, ?_⟩
      all_goals simp only [List.mem_cons, reduceCtorEq, false_or]; assumption
  | hostname =>
    refine ⟨_, copy_hostname he hi ho hs hf' no hl, ?_⟩
    obtain ⟨w, n⟩ := mix { p.url with host := o.url.canon.host } rfl (.inl rfl) (.inl rfl) (.inr rfl) (.inl rfl) (.inl rfl) (.inl rfl) (.inl rfl)
    refine ⟨w, i1, i2, n, ?_, ?_, fun _ => rfl, ?_, ?_, ?_, ?_⟩
    all_goals simp only [List.mem_cons, reduceCtorEq, false_or]; assumption
  | host =>
    refine ⟨_, copy_host he hi ho hs hf' no hl, ?_⟩
    obtain ⟨w, n⟩ := mix { p.url with
      host := o.url.canon.host
      port := if o.url.port = none then p.url.port else o.url.port } rfl (.inl rfl) (.inl rfl) (.inr rfl)
      (by
        dsimp only
        split
        · exact .inl rfl
        · exact .inr rfl) (.inl rfl) (.inl rfl) (.inl rfl)
    refine ⟨w, i1, i2, n, ?_, ?_, fun _ => rfl, ?_, ?_, ?_, ?_⟩
    case refine_3 =>
      simp only [List.mem_cons, reduceCtorEq, false_or]
      intro hm
      split
      · exact j4 hm
      · rfl
    all_goals simp only [List.mem_cons, reduceCtorEq, false_or]; assumption
  | port =>
    refine ⟨_, copy_port he ho hs hc, ?_⟩
    obtain ⟨w, n⟩ := mix { p.url with port := o.url.port } rfl (.inl rfl) (.inl rfl) (.inl rfl) (.inr rfl) (.inl rfl) (.inl rfl) (.inl rfl)
    refine ⟨w, i1, i2, n, ?_, ?_, ?_, fun _ => rfl, ?_, ?_, ?_⟩
    all_goals simp only [List.mem_cons, reduceCtorEq, false_or]; assumption
  | pathname =>
    obtain ⟨q, hq, _⟩ := no.list ho
    refine ⟨_, copy_pathname ho hs no.1 hhas.1 hl hq, ?_⟩
    obtain ⟨w, n⟩ := mix { p.url with path := o.url.path } rfl (.inl rfl) (.inl rfl) (.inl rfl) (.inl rfl) (.inr rfl) (.inl rfl) (.inl rfl)
    refine ⟨w, i1, i2, n, ?_, ?_, ?_, ?_, fun _ => rfl, ?_, ?_⟩
    all_goals simp only [List.mem_cons, reduceCtorEq, false_or]; assumption
  | search =>
    refine ⟨_, copy_search ho hs hl, ?_⟩
    obtain ⟨w, n⟩ := mix { p.url with query := ownShown o.url.query } rfl (.inl rfl) (.inl rfl) (.inl rfl) (.inl rfl) (.inl rfl) (.inr rfl) (.inl rfl)
    refine ⟨w, rfl, i2, n, ?_, ?_, ?_, ?_, ?_, fun _ => rfl, ?_⟩
    all_goals simp only [List.mem_cons, reduceCtorEq, false_or]; assumption
  | hash =>
    refine ⟨_, copy_hash ho hl, ?_⟩
    obtain ⟨w, n⟩ := mix { p.url with fragment := ownShown o.url.fragment } rfl (.inl rfl) (.inl rfl) (.inl rfl) (.inl rfl) (.inl rfl) (.inl rfl) (.inr rfl)
    refine ⟨w, i1, i2, n, ?_, ?_, ?_, ?_, ?_, ?_, fun _ => rfl⟩
    all_goals simp only [List.mem_cons, reduceCtorEq, false_or]; assumption

theorem copy_all (he : EnvOK env) (hi : IdnaOK env) {o : URLObj} (ho : WF true (HostWF env.quiet) o.url)
    (no : HasHost o.url) (hf : o.url.scheme ≠ u!"file") (as : List Attr) (ha : ∀ a ∈ as, a ≠ .href) :
    ∀ {p : URLObj} {S : List Attr}, CopyInv env.quiet (copyRec o.url) S p →
      CopyInv env.quiet (copyRec o.url) (as.reverse ++ S) (applyOps env p (as.map fun a => a.set (a.get o))) := by
  induction as with
  | nil => exact fun h => h
  | cons a as ih =>
    intro p S h
    obtain ⟨q, e, hq⟩ := copy_step he hi ho no hf h (ha a (by simp))
    have := ih (fun b hb => ha b (by simp [hb])) hq
    unfold applyOps at this ⊢
    rw [List.map_cons, List.foldl_cons, e]
    simpa using this

/-- a protocol that is taken over -/
theorem copy_protocol (env : Env) {o p : URLObj} {k : Bool} (ho : WF k P o.url) (hsp : o.url.isSpecial = p.url.isSpecial)
    (hf : o.url.scheme ≠ u!"file") (hf' : p.url.scheme ≠ u!"file") :
    (applyOp env p (.protocol o.protocol)).1 = .ok () ∧
    (applyOp env p (.protocol o.protocol)).2.url.scheme = o.url.scheme ∧
    (applyOp env p (.protocol o.protocol)).2.url.host = p.url.host := by
  show (setProtocol env p o.protocol).1 = _ ∧ (setProtocol env p o.protocol).2.url.scheme = _ ∧ (setProtocol env p o.protocol).2.url.host = _
  rw [setProtocol_eq]
  unfold URLObj.protocol
  have e : removeTabNewline (o.url.scheme ++ u!":" ++ u!":") = o.url.scheme ++ 58 :: [58] := by
    rw [noTab_print]
    · simp
    · intro c hc
      simp only [List.mem_append, List.mem_singleton] at hc
      rcases hc with (hc | hc) | hc
      · have := ho.auth.scheme.print c hc; omega
      · omega
      · omega
  rw [e, takeScheme_text ho.auth.scheme]
  have hr : schemeRefused p.url o.url.scheme = false := by
    unfold schemeRefused
    unfold Rec.isSpecial at hsp ⊢
    rw [hsp]
    have h1 : (o.url.scheme == u!"file") = false := by simpa using hf
    have h2 : (p.url.scheme == u!"file") = false := by simpa using hf'
    rw [h1, h2]
    cases isSpecialScheme p.url.scheme <;> simp
  dsimp only
  unfold overrideScheme
  rw [hr]
  dsimp only
  rw [if_neg (by simp)]
  refine ⟨rfl, ?_⟩
  split
  · split <;> exact ⟨rfl, rfl⟩
  · exact ⟨rfl, rfl⟩

/-! ### File URLs -/

theorem fileIsSpecial {u : Rec} (hf : u.scheme = u!"file") : u.isSpecial = true := by
  unfold Rec.isSpecial
  rw [hf]
  decide

theorem file_list {k : Bool} {u : Rec} (h : WF k P u) (hf : u.scheme = u!"file") :
    u.host ≠ none ∧ ∃ p, u.path = .list p ∧ SegsOK k u.scheme p ∧ p ≠ [] := by
  have hh := (h.auth.special (fileIsSpecial hf)).1
  refine ⟨hh, ?_⟩
  have := h.path
  unfold PathWF at this
  cases hp : u.path with
  | list p => rw [hp] at this; exact ⟨p, rfl, this.1, this.2.1 (fileIsSpecial hf)⟩
  | «opaque» s => rw [hp] at this; exact absurd this.2 hh

theorem file_mixed {u t r : Rec} (hu : WF true P u) (ht : WF true P t) (fu : u.scheme = u!"file") (ft : t.scheme = u!"file")
    (r0 : r.scheme = u!"file") (r1 : r.username = u.username) (r2 : r.password = u.password)
    (r3 : r.host = u.host ∨ r.host = t.host) (r4 : r.port = u.port) (r5 : r.path = u.path ∨ r.path = t.path)
    (r6 : r.query = u.query ∨ r.query = t.query) (r7 : r.fragment = u.fragment ∨ r.fragment = t.fragment) : WF true P r := by
  have s0 := fileIsSpecial r0
  have s1 := fileIsSpecial fu
  have s2 := fileIsSpecial ft
  obtain ⟨n1, p, hp, p1, p2⟩ := file_list hu fu
  obtain ⟨n2, q, hq, q1, q2⟩ := file_list ht ft
  obtain ⟨b1, b2, b3⟩ := hu.auth.bare (.inr (.inr fu))
  rw [b1] at r1
  rw [b2] at r2
  rw [b3] at r4
  have nr : r.host ≠ none := by rcases r3 with e | e <;> rw [e] <;> assumption
  refine ⟨⟨?_, ?_, ?_, ?_, ?_, ?_, ?_, ?_, ?_⟩, ?_, ?_, ?_, ?_⟩
  · rw [r0, ← fu]; exact hu.auth.scheme
  · rw [r1]; simp
  · rw [r2]; simp
  · rw [r4]; simp
  · rw [s0]
    rcases r3 with e | e <;> rw [e]
    · rw [← s1]; exact hu.auth.host
    · rw [← s2]; exact ht.auth.host
  · exact fun _ => ⟨nr, fun _ => r0⟩
  · exact fun e => absurd e nr
  · exact fun _ => ⟨r1, r2, .inl r4⟩
  · intro _ _
    rcases r3 with e | e <;> rw [e]
    · exact hu.auth.file rfl fu
    · exact ht.auth.file rfl ft
  · unfold PathWF
    rw [r0]
    rcases r5 with e | e <;> rw [e]
    · rw [hp]; exact ⟨fu ▸ p1, fun _ => p2, fun _ => p2⟩
    · rw [hq]; exact ⟨ft ▸ q1, fun _ => q2, fun _ => q2⟩
  · unfold QueryWF
    rw [s0]
    rcases r6 with e | e <;> rw [e]
    · have := hu.query; unfold QueryWF at this; rwa [s1] at this
    · have := ht.query; unfold QueryWF at this; rwa [s2] at this
  · unfold FragWF
    rcases r7 with e | e <;> rw [e]
    · exact hu.frag
    · exact ht.frag
  · intro s e
    rcases r5 with e' | e' <;> rw [e'] at e
    · rw [hp] at e; cases e
    · rw [hq] at e; cases e

theorem file_copyRec {u : Rec} (h : WF true (HostWF env) u) (hf : u.scheme = u!"file") : WF true (HostWF env) (copyRec u) := by
  obtain ⟨n, p, hp, h1, h2⟩ := file_list h hf
  have hc : (copyRec u).host = u.host.map Host.canon := canon_host u
  have n' : (copyRec u).host ≠ none := by rw [hc]; simpa using n
  refine ⟨⟨h.auth.scheme, h.auth.user, h.auth.pass, h.auth.port, ?_, fun _ => ⟨n', fun _ => hf⟩, fun e => absurd e n',
    fun _ => h.auth.loose (.inr (.inr hf)), ?_⟩, ?_, fun q hq => h.query q (ownShown_some hq), fun q hq => h.frag q (ownShown_some hq), ?_⟩
  · intro x hx
    rw [hc] at hx
    obtain ⟨y, hy, rfl⟩ := Option.map_eq_some_iff.1 hx
    exact hostWF_canon (h.auth.host y hy)
  · intro _ e e2
    rw [hc] at e2
    obtain ⟨y, hy, e3⟩ := Option.map_eq_some_iff.1 e2
    apply h.auth.file rfl hf
    rw [hy]
    cases y with
    | str s => exact congrArg some e3
    | ipv4 n => cases e3
    | ipv6 a => cases e3
  · unfold PathWF
    have : (copyRec u).path = .list p := hp
    rw [this]
    exact ⟨h1, fun _ => h2, fun _ => h2⟩
  · intro s hs
    have hs : u.path = _ := hs
    rw [hp] at hs; cases hs

theorem copy_fileHost {o : URLObj} {u : Rec} (he : EnvOK env) (hi : IdnaOK env) (ho : WF true (HostWF env) o.url)
    (fo : o.url.scheme = u!"file") (fu : u.scheme = u!"file") {x : Host} (hx : o.url.host = some x) (ov : PState) :
    hostSetOut env ov u (hostSerialize x) = (.ok (), { u with host := o.url.canon.host }) := by
  have hw := ho.auth.host x hx
  have hparse := hostParse_serialize he hi hw
  have htw : (hostSerialize x).takeWhile notFileHostEnd = hostSerialize x := by
    have := takeWhile_append (p := notFileHostEnd) (a := hostSerialize x) (b := []) (by
      intro c hc
      have := hw.text.chars c hc
      simp [notFileHostEnd]; omega) (by simp)
    rwa [List.append_nil] at this
  unfold hostSetOut
  rw [if_pos fu, htw, canon_host, hx]
  unfold fileHostOut
  split
  · rename_i hem
    have h0 : hostSerialize x = [] := by simpa using hem
    rw [h0] at hparse
    simp only [hostParse, Res.ok, Except.ok.injEq] at hparse
    simp only [Option.map_some]
    rw [← hparse]
  · rw [fileIsSpecial fu, ← fileIsSpecial fo, hparse]
    dsimp only
    have hl : x.canon ≠ .str u!"localhost" := by
      intro hl
      apply ho.auth.file rfl fo
      rw [hx]
      cases x with
      | str s => exact congrArg some hl
      | ipv4 n => cases hl
      | ipv6 a => cases hl
    rw [if_neg hl]
    rfl

/-- the attributes in `S` have been copied from `t`, a file URL -/
structure FileCopy (env : Env) (t : Rec) (S : List Attr) (p : URLObj) : Prop where
  wf : WF true (HostWF env) p.url
  params : p.params = spOfQuery p.url.query
  scheme : p.url.scheme = u!"file"
  host : .hostname ∈ S → p.url.host = t.host
  path : .pathname ∈ S → p.url.path = t.path
  query : .search ∈ S → p.url.query = t.query
  frag : .hash ∈ S → p.url.fragment = t.fragment

theorem file_step (he : EnvOK env) (hi : IdnaOK env) {o p : URLObj} {S : List Attr} (ho : WF true (HostWF env.quiet) o.url)
    (fo : o.url.scheme = u!"file") (h : FileCopy env.quiet (copyRec o.url) S p) {a : Attr} (ha : a ≠ .href) :
    ∃ q, applyOp env p (a.set (a.get o)) = (.ok (), q) ∧ FileCopy env.quiet (copyRec o.url) (a :: S) q := by
  have hs : p.url.scheme = o.url.scheme := by rw [h.scheme, fo]
  have hc : p.url.cannotHaveUPP = true := by unfold Rec.cannotHaveUPP; rw [h.scheme]; simp
  obtain ⟨np, l, hl, _⟩ := file_list h.wf h.scheme
  obtain ⟨no, l', hl', _⟩ := file_list ho fo
  obtain ⟨x, hx⟩ := Option.ne_none_iff_exists'.1 no
  have hpr := (ho.auth.host x hx).print
  have t2 : removeTabNewline (hostSerialize x) = hostSerialize x :=
    noTab_print fun c hc => by have := hpr c hc; omega
  have hop : p.url.hasOpaquePath = false := by unfold Rec.hasOpaquePath; rw [hl]
  have hw := file_copyRec ho fo
  have mix := fun r => file_mixed (r := r) h.wf hw h.scheme fo
  obtain ⟨hwf, i1, i2, j3, j5, j6, j7⟩ := h
  have idle : ∀ b, b = Attr.protocol ∨ b = .username ∨ b = .password ∨ b = .port → FileCopy env.quiet (copyRec o.url) (b :: S) p := by
    rintro b (rfl | rfl | rfl | rfl) <;> refine ⟨hwf, i1, i2, ?_, ?_, ?_, ?_⟩
    all_goals simp only [List.mem_cons, reduceCtorEq, false_or]; assumption
  cases a with
  | href => exact absurd rfl ha
  | protocol =>
    refine ⟨p, ?_, idle _ (by simp)⟩
    have : o.protocol = p.protocol := by unfold URLObj.protocol; rw [hs]
    show setProtocol env p o.protocol = _
    rw [this, own_protocol env hwf]
  | username => exact ⟨p, by show setUsername p _ = _; unfold setUsername; rw [if_pos hc], idle _ (by simp)⟩
  | password => exact ⟨p, by show setPassword p _ = _; unfold setPassword; rw [if_pos hc], idle _ (by simp)⟩
  | port => exact ⟨p, by show setPort env p _ = _; unfold setPort; rw [if_pos hc], idle _ (by simp)⟩
  | hostname =>
    refine ⟨{ p with url := { p.url with host := o.url.canon.host } }, ?_, ?_⟩
    · show setHostname env p o.hostname = _
      have hv : o.hostname = hostSerialize x := by unfold URLObj.hostname Rec.serializeHost; rw [hx]
      rw [setHostname_eq env p _ hop, hv, t2, copy_fileHost (env := env.quiet) he hi.quiet ho fo i2 hx]
    · refine ⟨mix { p.url with host := o.url.canon.host } i2 rfl rfl (.inr rfl) rfl (.inl rfl) (.inl rfl) (.inl rfl), i1, i2, fun _ => rfl, ?_, ?_, ?_⟩
      all_goals simp only [List.mem_cons, reduceCtorEq, false_or]; assumption
  | host =>
    refine ⟨{ p with url := { p.url with host := o.url.canon.host } }, ?_, ?_⟩
    · show setHost env p o.host = _
      have hport : o.url.serializePort = [] := by
        unfold Rec.serializePort; rw [(ho.auth.bare (.inr (.inr fo))).2.2]
      have hv : o.host = hostSerialize x := by unfold URLObj.host; rw [hx, hport]; exact List.append_nil _
      rw [setHost_eq env p _ hop, hv, t2, copy_fileHost (env := env.quiet) he hi.quiet ho fo i2 hx]
    · refine ⟨mix { p.url with host := o.url.canon.host } i2 rfl rfl (.inr rfl) rfl (.inl rfl) (.inl rfl) (.inl rfl), i1, i2, fun _ => rfl, ?_, ?_, ?_⟩
      all_goals simp only [List.mem_cons, reduceCtorEq, false_or]; assumption
  | pathname =>
    refine ⟨_, copy_pathname ho hs no np hl hl', ?_⟩
    refine ⟨mix { p.url with path := o.url.path } i2 rfl rfl (.inl rfl) rfl (.inr rfl) (.inl rfl) (.inl rfl), i1, i2, ?_, fun _ => rfl, ?_, ?_⟩
    all_goals simp only [List.mem_cons, reduceCtorEq, false_or]; assumption
  | search =>
    refine ⟨_, copy_search ho hs hl, ?_⟩
    refine ⟨mix { p.url with query := ownShown o.url.query } i2 rfl rfl (.inl rfl) rfl (.inl rfl) (.inr rfl) (.inl rfl), rfl, i2, ?_, ?_, fun _ => rfl, ?_⟩
    all_goals simp only [List.mem_cons, reduceCtorEq, false_or]; assumption
  | hash =>
    refine ⟨_, copy_hash ho hl, ?_⟩
    refine ⟨mix { p.url with fragment := ownShown o.url.fragment } i2 rfl rfl (.inl rfl) rfl (.inl rfl) (.inl rfl) (.inr rfl), i1, i2, ?_, ?_, ?_, fun _ => rfl⟩
    all_goals simp only [List.mem_cons, reduceCtorEq, false_or]; assumption

theorem file_all (he : EnvOK env) (hi : IdnaOK env) {o : URLObj} (ho : WF true (HostWF env.quiet) o.url)
    (fo : o.url.scheme = u!"file") (as : List Attr) (ha : ∀ a ∈ as, a ≠ .href) :
    ∀ {p : URLObj} {S : List Attr}, FileCopy env.quiet (copyRec o.url) S p →
      FileCopy env.quiet (copyRec o.url) (as.reverse ++ S) (applyOps env p (as.map fun a => a.set (a.get o))) := by
  induction as with
  | nil => exact fun h => h
  | cons a as ih =>
    intro p S h
    obtain ⟨q, e, hq⟩ := file_step he hi ho fo h (ha a (by simp))
    have := ih (fun b hb => ha b (by simp [hb])) hq
    unfold applyOps at this ⊢
    rw [List.map_cons, List.foldl_cons, e]
    simpa using this

end Urlstd
