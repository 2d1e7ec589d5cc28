/-
Assigning an attribute its own value.
-/
import Verif.Lemmas.History

set_option linter.unusedSimpArgs false
set_option linter.unusedVariables false

namespace Urlstd

open Spec (IsStr)

variable {env : Env} {P : Bool → Host → Prop} {k : Bool}

theorem noTab_print {s : Str} (h : ∀ c ∈ s, 32 ≤ c) : removeTabNewline s = s := by
  apply removeTabNewline_id
  intro c hc
  have := h c hc
  simp [isTabNewline]; omega

/-! ### username, password -/

theorem own_username {o : URLObj} (h : WF k P o.url) : setUsername o o.username = (.ok (), o) := by
  unfold setUsername URLObj.username
  rw [userinfo_fixed h.auth.user, ite_self]

theorem own_password {o : URLObj} (h : WF k P o.url) : setPassword o o.password = (.ok (), o) := by
  unfold setPassword URLObj.password
  rw [userinfo_fixed h.auth.pass, ite_self]

/-! ### protocol -/

theorem own_protocol (env : Env) {o : URLObj} (h : WF k P o.url) : setProtocol env o o.protocol = (.ok (), o) := by
  rw [setProtocol_eq]
  unfold URLObj.protocol
  have e : removeTabNewline (o.url.scheme ++ u!":" ++ u!":") = o.url.scheme ++ 58 :: [58] := by
    rw [noTab_print]
    · simp
    · intro c hc
      simp only [List.mem_append, List.mem_singleton] at hc
      rcases hc with (hc | hc) | hc
      · have := h.auth.scheme.print c hc; omega
      · omega
      · omega
  rw [e, takeScheme_text h.auth.scheme]
  dsimp only
  have : overrideScheme o.url o.url.scheme = o.url := by
    unfold overrideScheme
    rw [show ({ o.url with scheme := o.url.scheme } : Rec) = o.url from rfl]
    dsimp only
    split
    · rfl
    · cases hp : o.url.port with
      | none => rfl
      | some p =>
        dsimp only
        rw [(h.auth.port p hp).2, if_neg (by simp)]
  rw [this]

/-! ### port -/

theorem portOut_own (he : EnvOK env) {u : Rec} {n : Nat} (hn : n ≤ 65535) (hd : isDefaultPort u.scheme n = false) :
    portOut env u (natDec n) = (.ok (), { u with port := some n }) := by
  unfold portOut
  rw [if_neg (by simpa using natDec_ne_nil n), pyInt_port env he hn]
  dsimp only
  have e1 : (Int.ofNat n).toNat = n := rfl
  rw [e1, if_neg (by omega), hd]
  rfl

theorem takeWhile_natDec (n : Nat) : (natDec n).takeWhile isDigit = natDec n := by
  have := takeWhile_append (b := []) (natDec_digits n) (by simp)
  rwa [List.append_nil] at this

theorem removeTabNewline_natDec (n : Nat) : removeTabNewline (natDec n) = natDec n :=
  noTab_print fun c hc => by have := digit_print (natDec_digits n c hc); omega

theorem own_port (he : EnvOK env) {o : URLObj} (h : WF k P o.url) : setPort env o o.port = (.ok (), o) := by
  cases hc : o.url.cannotHaveUPP with
  | true => unfold setPort; rw [if_pos hc]
  | false =>
    cases hp : o.url.port with
    | none =>
      unfold setPort URLObj.port
      rw [if_neg (by simp [hc]), hp]
      have : ({ o.url with port := none } : Rec) = o.url := by rw [← hp]
      rw [if_pos (by rfl), this]
    | some n =>
      have hv : o.port = natDec n := by unfold URLObj.port; rw [hp]
      rw [hv, setPort_eq env o _ hc (natDec_ne_nil n), removeTabNewline_natDec, takeWhile_natDec,
        portOut_own (env := env.quiet) he (h.auth.port n hp).1 (h.auth.port n hp).2]
      have : ({ o.url with port := some n } : Rec) = o.url := by rw [← hp]
      rw [this]

/-! ### search, hash -/

theorem rstrip_id {u : Rec} (h : WF k P u) : potentiallyRstrip u = u := by
  rcases rstrip_cases u with h1 | ⟨s, w, hp, hf, hq, h1, hw, _⟩
  · exact h1
  · have ht := h.tail _ hp hq hf
    have hpath : OpaqueOK (s ++ w) := by
      have := h.path
      unfold PathWF at this
      rw [hp] at this
      exact this.1
    rcases List.eq_nil_or_concat w with rfl | ⟨w', x, rfl⟩
    · rw [List.append_nil] at hp
      rw [h1, ← hp]
    · exfalso
      apply ht
      have hx := hw x (by simp)
      have hx2 := safeC0_print ((hpath.chars x (by simp)).1)
      have : x = 32 := by unfold Spec.AsciiWhite at hx; omega
      simp [this]

theorem own_search {o : URLObj} (h : ObjOK P o) (hq : o.url.query ≠ some []) : setSearch env o o.search = (.ok (), o) := by
  cases hs : o.url.query with
  | none =>
    have hv : o.search = [] := by unfold URLObj.search; rw [hs]
    unfold setSearch
    rw [hv, if_pos (by rfl)]
    have : ({ o.url with query := none } : Rec) = o.url := by rw [← hs]
    dsimp only
    rw [this, rstrip_id h.url, ← h.params]
  | some q =>
    have hne : q ≠ [] := by rintro rfl; exact hq hs
    have hv : o.search = 63 :: q := by
      unfold URLObj.search
      rw [hs]
      exact if_neg (by simpa using hne)
    have hqs := h.url.query q hs
    have e : removeTabNewline (dropLead c!"?" (63 :: q)) = q := by
      show removeTabNewline (if 63 = 63 then q else 63 :: q) = q
      rw [if_pos rfl, noTab_print fun c hc => by have := querySafe_print (hqs c hc); omega]
    rw [hv, setSearch_eq env o _ (by simp), e, query_fixed hqs, ← hs, ← h.params]

theorem own_hash {o : URLObj} (h : WF k P o.url) (hf : o.url.fragment ≠ some []) : setHash env o o.hash = (.ok (), o) := by
  cases hs : o.url.fragment with
  | none =>
    have hv : o.hash = [] := by unfold URLObj.hash; rw [hs]
    unfold setHash
    rw [hv, if_pos (by rfl)]
    have : ({ o.url with fragment := none } : Rec) = o.url := by rw [← hs]
    rw [this, rstrip_id h]
  | some q =>
    have hne : q ≠ [] := by rintro rfl; exact hf hs
    have hv : o.hash = 35 :: q := by
      unfold URLObj.hash
      rw [hs]
      exact if_neg (by simpa using hne)
    have hqs := h.frag q hs
    have e : removeTabNewline (dropLead c!"#" (35 :: q)) = q := by
      show removeTabNewline (if 35 = 35 then q else 35 :: q) = q
      rw [if_pos rfl, noTab_print fun c hc => by have := safeFragment_print (hqs c hc); omega]
    rw [hv, setHash_eq env o _ (by simp), e, fragment_fixed hqs, ← hs]

/-! ### pathname -/

theorem own_pathname {o : URLObj} (h : WF true P o.url) : setPathname env o o.pathname = (.ok (), o) := by
  cases hp : o.url.path with
  | «opaque» s => unfold setPathname; rw [if_pos (by unfold Rec.hasOpaquePath; rw [hp])]
  | list p =>
    have hpath := h.path
    unfold PathWF at hpath
    rw [hp] at hpath
    dsimp only at hpath
    obtain ⟨hsegs, hsp, hnull⟩ := hpath
    rw [setPathname_eq env o _ (by unfold Rec.hasOpaquePath; rw [hp])]
    have hv : o.pathname = serializePath (.list p) := by unfold URLObj.pathname; rw [hp]
    have hpr : ∀ c ∈ serializePath (.list p), 32 ≤ c := by
      intro c hc
      simp only [serializePath, List.mem_flatMap, List.mem_cons] at hc
      obtain ⟨s, hs, rfl | hc⟩ := hc
      · omega
      · have := safePath_print ((hsegs.segs s hs).chars c hc).1; omega
    have : pathnameSegs o.url (removeTabNewline o.pathname) = p := by
      rw [hv, noTab_print hpr]
      cases p with
      | nil =>
        show (if _ then _ else _) = _
        rw [if_neg]
        simp only [Bool.or_eq_true, Option.isNone_iff_eq_none, not_or]
        exact ⟨fun h => hsp h rfl, fun h => hnull h rfl⟩
      | cons s ss =>
        have e : serializePath (.list (s :: ss)) = 47 :: (s ++ serializePath (.list ss)) := by simp [serializePath]
        rw [e]
        unfold pathnameSegs
        dsimp only
        rw [if_pos (by simp [isPathSep]), pathPieces_segs, addPieces_id, List.nil_append]
        · rwa [List.nil_append]
        · intro x hx c hc
          exact ((hsegs.segs x hx).chars c hc).2
    rw [this, ← hp]

/-! ### host, hostname -/

theorem own_hostSet {u : Rec} (he : EnvOK env) (hi : IdnaOK env) (h : WF true (HostWF env) u) {x : Host}
    (hx : u.host = some x) : hostSetOut env .hostname u (hostSerialize x) = (.ok (), u.canon) ∧
      hostSetOut env .host u (hostSerialize x ++ u.serializePort) = (.ok (), u.canon) := by
  have hw := h.auth.host x hx
  have ht := hw.text
  have hparse := hostParse_serialize he hi hw
  have hcanon : u.canon = { u with host := some x.canon } := by unfold Rec.canon; rw [hx]; rfl
  unfold hostSetOut
  by_cases hf : u.scheme = u!"file"
  · have hport : u.serializePort = [] := by
      unfold Rec.serializePort; rw [(h.auth.bare (.inr (.inr hf))).2.2]
    have htw : (hostSerialize x).takeWhile notFileHostEnd = hostSerialize x := by
      have := takeWhile_append (p := notFileHostEnd) (a := hostSerialize x) (b := []) (by
        intro c hc
        have := ht.chars c hc
        simp [notFileHostEnd]; omega) (by simp)
      rwa [List.append_nil] at this
    have key : fileHostOut env u (hostSerialize x) = (.ok (), u.canon) := by
      rw [hcanon]
      unfold fileHostOut
      split
      · rename_i hem
        have hxe : x = .str [] := by
          have h0 : hostSerialize x = [] := by simpa using hem
          rw [h0] at hparse
          simp only [hostParse, Res.ok, Except.ok.injEq] at hparse
          cases x with
          | str s => exact congrArg Host.str h0
          | ipv4 n => cases hparse
          | ipv6 a => cases hparse
        rw [hxe]; rfl
      · rw [hparse]
        dsimp only
        have hl : x.canon ≠ .str u!"localhost" := by
          intro hl
          apply h.auth.file rfl hf
          rw [hx]
          cases x with
          | str s => exact congrArg some hl
          | ipv4 n => cases hl
          | ipv6 a => cases hl
        rw [if_neg hl]
    rw [if_pos hf, if_pos hf, hport, List.append_nil, htw]
    exact ⟨key, key⟩
  · rw [if_neg hf, if_neg hf]
    have hempty : hostSerialize x = [] → x = .str [] := by
      intro h0
      rw [h0] at hparse
      simp only [hostParse, Res.ok, Except.ok.injEq] at hparse
      cases x with
      | str s => exact congrArg Host.str h0
      | ipv4 n => cases hparse
      | ipv6 a => cases hparse
    have hnosp : hostSerialize x = [] → u.isSpecial = false ∧ u.includesCredentials = false ∧ u.port = none := by
      intro h0
      have hxe := hempty h0
      rw [hxe] at hx
      have hb := h.auth.bare (.inr (.inl hx))
      refine ⟨?_, by unfold Rec.includesCredentials; simp [hb.1, hb.2.1], hb.2.2⟩
      cases hsp : u.isSpecial with
      | false => rfl
      | true => exact absurd ((h.auth.special hsp).2 hx) hf
    have hend : hostEndOut env u (hostSerialize x) = (.ok (), u.canon) := by
      unfold hostEndOut
      rw [if_neg, if_neg, hparse, hcanon]
      · intro hc
        simp only [Bool.and_eq_true, List.isEmpty_iff] at hc
        obtain ⟨_, h2, h3⟩ := hnosp hc.1
        rw [h2] at hc
        unfold Rec.portTruthy at hc
        rw [h3] at hc
        simp at hc
      · intro hc
        simp only [Bool.and_eq_true, List.isEmpty_iff] at hc
        have := (hnosp hc.2).1
        rw [hc.1] at this; cases this
    have hspan := ht.span u.isSpecial [] (by simp)
    rw [List.append_nil] at hspan
    refine ⟨by rw [hspan]; exact hend, ?_⟩
    cases hp : u.port with
    | none =>
      have hs : u.serializePort = [] := by unfold Rec.serializePort; rw [hp]
      rw [hs, List.append_nil, hspan]
      exact hend
    | some n =>
      have hs : u.serializePort = 58 :: natDec n := by unfold Rec.serializePort; rw [hp]
      rw [hs, ht.span _ _ fun c hc => .inl (by simpa using hc.symm)]
      unfold hostOut
      dsimp only
      have hne : hostSerialize x ≠ [] := by
        intro h0
        have := (hnosp h0).2.2
        rw [hp] at this; cases this
      rw [if_pos rfl, if_neg (by simpa using hne), if_neg (by simp), hparse]
      dsimp only
      rw [takeWhile_natDec, portOut_own (u := { u with host := some x.canon }) he (h.auth.port n hp).1 (h.auth.port n hp).2,
        hcanon, ← hp]

theorem own_host {o : URLObj} (he : EnvOK env) (hi : IdnaOK env) (h : WF true (HostWF env.quiet) o.url)
    (hn : o.url.host ≠ none ∨ ∃ s, o.url.path = .opaque s) :
    (setHost env o o.host = (.ok (), o) ∨ setHost env o o.host = (.ok (), { o with url := o.url.canon })) ∧
    (setHostname env o o.hostname = (.ok (), o) ∨
      setHostname env o o.hostname = (.ok (), { o with url := o.url.canon })) := by
  cases ho : o.url.hasOpaquePath with
  | true => unfold setHost setHostname; rw [if_pos ho, if_pos ho]; exact ⟨.inl rfl, .inl rfl⟩
  | false =>
    have hne : o.url.host ≠ none := by
      rcases hn with hn | ⟨s, hs⟩
      · exact hn
      · unfold Rec.hasOpaquePath at ho; rw [hs] at ho; cases ho
    obtain ⟨x, hx⟩ := Option.ne_none_iff_exists'.1 hne
    have hv1 : o.host = hostSerialize x ++ o.url.serializePort := by unfold URLObj.host; rw [hx]
    have hv2 : o.hostname = hostSerialize x := by unfold URLObj.hostname Rec.serializeHost; rw [hx]
    have hpr := (h.auth.host x hx).print
    have t2 : removeTabNewline (hostSerialize x) = hostSerialize x :=
      noTab_print fun c hc => by have := hpr c hc; omega
    have t1 : removeTabNewline (hostSerialize x ++ o.url.serializePort) = hostSerialize x ++ o.url.serializePort := by
      refine noTab_print fun c hc => ?_
      rcases List.mem_append.1 hc with hc | hc
      · have := hpr c hc; omega
      · rcases port_chars _ c hc with hc | hc
        · omega
        · have := digit_print hc; omega
    obtain ⟨k1, k2⟩ := own_hostSet (env := env.quiet) he hi.quiet h hx
    rw [setHost_eq env o _ ho, setHostname_eq env o _ ho, hv1, hv2, t1, t2, k1, k2]
    exact ⟨.inr rfl, .inr rfl⟩

end Urlstd
