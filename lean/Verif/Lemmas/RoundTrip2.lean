/-
Parsing the serialization of a well-formed record gives that record: authority and the whole.
-/
import Verif.Lemmas.RoundTrip

set_option linter.unusedSimpArgs false
set_option linter.unusedVariables false

namespace Urlstd

open Spec (IsStr)

variable {env : Env} {P : Bool → Host → Prop}

/-! ### The text of a host -/

theorem hostSpan_head {sp : Bool} {r : Str} (hr : ∀ c, r.head? = some c → c = 58 ∨ isAuthorityEnd sp c = true) :
    hostSpan sp false r = ([], r) := by
  cases r with
  | nil => rfl
  | cons c cs =>
    unfold hostSpan
    rw [if_pos]
    rcases hr c rfl with h | h
    · simp [h]
    · simp [h]

theorem hostSpan_plain {sp : Bool} {t r : Str}
    (ht : ∀ c ∈ t, c ≠ 58 ∧ c ≠ 91 ∧ isAuthorityEnd sp c = false)
    (hr : ∀ c, r.head? = some c → c = 58 ∨ isAuthorityEnd sp c = true) : hostSpan sp false (t ++ r) = (t, r) := by
  induction t with
  | nil => exact hostSpan_head hr
  | cons c cs ih =>
    obtain ⟨h1, h2, h3⟩ := ht c (by simp)
    rw [List.cons_append]
    unfold hostSpan
    rw [if_neg (by simp [h1, h3]), if_neg h2, ite_self, ih fun x hx => ht x (by simp [hx])]

theorem hostSpan_inside {sp : Bool} {t r : Str} (ht : ∀ c ∈ t, c ≠ 93 ∧ isAuthorityEnd sp c = false)
    (hr : ∀ c, r.head? = some c → c = 58 ∨ isAuthorityEnd sp c = true) :
    hostSpan sp true (t ++ 93 :: r) = (t ++ [93], r) := by
  induction t with
  | nil =>
    rw [List.nil_append]
    unfold hostSpan
    rw [if_neg (by cases sp <;> simp [isAuthorityEnd])]
    simp only [hostSpan_head hr]
    simp [hostSpan_head hr]
  | cons c cs ih =>
    obtain ⟨h1, h2⟩ := ht c (by simp)
    rw [List.cons_append]
    unfold hostSpan
    rw [if_neg (by simp [h2])]
    have : (if c = c!"[" then true else if c = c!"]" then false else true) = true := by
      simp [h1]
    rw [this, ih fun x hx => ht x (by simp [hx])]; rfl

/-- the text of a host: what the authority state and the host state rely on -/
structure HostText (t : Str) : Prop where
  chars : ∀ c ∈ t, c ≠ 35 ∧ c ≠ 47 ∧ c ≠ 63 ∧ c ≠ 64 ∧ c ≠ 92 ∧ c ≠ 124
  span : ∀ sp r, (∀ c, r.head? = some c → c = 58 ∨ isAuthorityEnd sp c = true) → hostSpan sp false (t ++ r) = (t, r)
  colon : t ≠ [] → t.head? ≠ some 58
  drive : isWindowsDriveLetter t = false

theorem authorityEnd_false {sp : Bool} {c : Nat} (h : c ≠ 35 ∧ c ≠ 47 ∧ c ≠ 63 ∧ c ≠ 92) :
    isAuthorityEnd sp c = false := by
  simp [isAuthorityEnd, h]

theorem HostText.plain {t : Str} (h : ∀ c ∈ t, c ≠ 35 ∧ c ≠ 47 ∧ c ≠ 58 ∧ c ≠ 63 ∧ c ≠ 64 ∧ c ≠ 91 ∧ c ≠ 92 ∧ c ≠ 124) :
    HostText t where
  chars := fun c hc => by have := h c hc; omega
  span := fun sp r hr => hostSpan_plain (fun c hc => by
    have := h c hc
    exact ⟨by omega, by omega, authorityEnd_false (by omega)⟩) hr
  colon := by
    intro _ hh
    have := h 58 (List.mem_of_mem_head? hh)
    omega
  drive := by
    unfold isWindowsDriveLetter
    split
    · rename_i a b
      have := h b (by simp)
      simp; omega
    · rfl

theorem HostWF.text {m : Bool} {h : Host} (hw : HostWF env m h) : HostText (hostSerialize h) := by
  cases h with
  | str s =>
    show HostText s
    apply HostText.plain
    intro c hc
    have : ¬ Spec.ForbiddenHostCP c := by
      rcases hw with rfl | ⟨_, h⟩ | ⟨_, h⟩
      · simp at hc
      · rw [← isForbiddenHost_iff, (h.2 c hc).2.2]; simp
      · have h2 := (h.chars c hc).2
        intro hf
        have : isForbiddenDomain c = true := (isForbiddenDomain_iff c).2 (.inl hf)
        rw [h2] at this; cases this
    unfold Spec.ForbiddenHostCP at this
    simp only [List.mem_cons, List.not_mem_nil, or_false, not_or] at this
    omega
  | ipv4 n =>
    apply HostText.plain
    intro c hc
    rcases ipv4Serialize_digits n c hc with h | h
    · rw [isDigit_iff] at h; omega
    · omega
  | ipv6 a =>
    have hm := ipv6Serialize_mem hw
    have e : hostSerialize (.ipv6 a) = 91 :: (ipv6Serialize a ++ [93]) := by simp [hostSerialize]
    rw [e]
    refine ⟨?_, ?_, ?_, ?_⟩
    · intro c hc
      simp only [List.mem_cons, List.mem_append, List.not_mem_nil, or_false] at hc
      rcases hc with hc | hc | hc
      · omega
      · rcases hm c hc with h | h
        · rw [isHex_iff] at h; omega
        · omega
      · omega
    · intro sp r hr
      rw [List.cons_append]
      unfold hostSpan
      rw [if_neg (by cases sp <;> simp [isAuthorityEnd])]
      simp only [if_true, List.append_assoc, List.singleton_append]
      rw [hostSpan_inside (fun c hc => ?_) hr]
      rcases hm c hc with h | h
      · rw [isHex_iff] at h
        exact ⟨by omega, authorityEnd_false (by omega)⟩
      · exact ⟨by omega, authorityEnd_false (by omega)⟩
    · simp
    · unfold isWindowsDriveLetter
      split
      · rename_i heq
        simp only [List.cons.injEq] at heq
        rw [← heq.1]; simp [isAlpha]
      · rfl

/-! ### Host and port -/

/-- the text behind the authority -/
def restStr (u : Rec) : Str := serializePath u.path ++ tailStr u.query u.fragment

theorem restStr_head {u : Rec} {p : List Str} (hp : u.path = .list p) :
    ∀ c, (restStr u).head? = some c → c = 47 ∨ c = 63 ∨ c = 35 := by
  intro c hc
  unfold restStr at hc
  rw [hp] at hc
  cases p with
  | nil => exact .inr (tailStr_head _ _ c hc)
  | cons s ss => simp [serializePath] at hc; omega

theorem restStr_end {u : Rec} {p : List Str} (hp : u.path = .list p) (sp : Bool) :
    ∀ c, (restStr u).head? = some c → isAuthorityEnd sp c = true := by
  intro c hc
  rcases restStr_head hp c hc with rfl | rfl | rfl <;> cases sp <;> decide

theorem pyInt_port (env : Env) (he : EnvOK env) {p : Nat} (hp : p ≤ 65535) : pyInt env 10 (natDec p) = some (Int.ofNat p) := by
  have hlen : (natDec p).length ≤ 5 := natDec_length (by omega) (by omega)
  rw [pyInt_numeral env (by omega) (natDec_numeral p) (natDec_ne_nil p) (fun _ => by
    rcases he with h | h
    · left; exact h
    · right; omega), natDec_val]

theorem digit_not_end {sp : Bool} {c : Nat} (h : isAuthorityEnd sp c = true) : isDigit c = false := by
  simp only [isAuthorityEnd, Bool.or_eq_true, Bool.and_eq_true, beq_iff_eq] at h
  cases hd : isDigit c
  · rfl
  · rw [isDigit_iff] at hd; omega

/-- the port state on a port and the text behind it -/
theorem eval_port {base : Option Rec} (he : EnvOK env) {u : Rec} (hw : PartsOK u) {p : List Str}
    (hp : u.path = .list p) (hne : u.isSpecial = true → p ≠ []) {n : Nat} (hn : u.port = some n)
    (hport : n ≤ 65535 ∧ isDefaultPort u.scheme n = false) :
    eval env .utf8 base none .port (natDec n ++ restStr u) { u.head with port := none } = (.ok (), u) := by
  rw [eval_step _ _ _ _ (by decide)]
  show (sPort env none (natDec n ++ restStr u) { u.head with port := none }).andThen env .utf8 base none = _
  have hend := restStr_end hp u.isSpecial
  have hd : ∀ c, (restStr u).head? = some c → isDigit c = false := fun c hc => digit_not_end (hend c hc)
  unfold sPort
  rw [takeWhile_append (natDec_digits n) hd, dropWhile_append (natDec_digits n) hd]
  have key : sPortEnd env false (natDec n) (restStr u) { u.head with port := none } =
      .to .pathStart (restStr u) u.head := by
    unfold sPortEnd
    dsimp only
    rw [if_neg (by simpa using natDec_ne_nil n), pyInt_port env he hport.1]
    dsimp only
    have e1 : (Int.ofNat n).toNat = n := rfl
    rw [e1, if_neg (by omega), if_neg (by simp)]
    have : isDefaultPort u.head.scheme n = false := hport.2
    rw [this, ← hn]
    rfl
  have : sPortGo env false (natDec n) (restStr u) { u.head with port := none } =
      .to .pathStart (restStr u) u.head := by
    rw [← key]
    unfold sPortGo
    split
    · rename_i heq; rw [heq]
    · rename_i c cs heq
      have := hend c (by rw [heq]; rfl)
      have e2 : ({ u.head with port := none } : Rec).isSpecial = u.isSpecial := rfl
      rw [e2, this, heq]
      rfl
  dsimp only [Option.isSome]
  rw [this]
  exact eval_pathStart hw hp hne

/-- what holds of host and port -/
structure HPOK (env : Env) (u : Rec) (t : Str) (h : Host) : Prop where
  host : u.host = some h
  text : HostText t
  parse : (hostParse env t (!u.isSpecial)).res = .ok h
  empty : t = [] → u.isSpecial = false ∧ u.port = none
  port : ∀ p, u.port = some p → p ≤ 65535 ∧ isDefaultPort u.scheme p = false

/-- the host state on a host, a port and the text behind them -/
theorem eval_host {base : Option Rec} (he : EnvOK env) {u : Rec} (hw : PartsOK u) {p : List Str}
    (hp : u.path = .list p) (hne : u.isSpecial = true → p ≠ []) {t : Str} {h : Host} (hh : HPOK env u t h) :
    eval env .utf8 base none .host (t ++ (u.serializePort ++ restStr u)) { u.head with host := none, port := none } =
      (.ok (), u) := by
  rw [eval_step _ _ _ _ (by decide)]
  show (sHost env none (t ++ (u.serializePort ++ restStr u)) { u.head with host := none, port := none }).andThen
    env .utf8 base none = _
  have e1 : ({ u.head with host := none, port := none } : Rec).isSpecial = u.isSpecial := rfl
  unfold sHost
  dsimp only [Option.isSome]
  rw [if_neg (by simp), e1]
  cases hport : u.port with
  | none =>
    have hs : u.serializePort = [] := by unfold Rec.serializePort; rw [hport]
    have hend := restStr_end hp u.isSpecial
    rw [hs, List.nil_append, hh.text.span _ _ fun c hc => .inr (hend c hc)]
    have key : sHostEnd env false t (restStr u) { u.head with host := none, port := none } =
        .to .pathStart (restStr u) u.head := by
      unfold sHostEnd
      rw [e1, if_neg, if_neg (by simp), hh.parse]
      · simp only [Bool.false_eq_true, if_false, SOut.to.injEq, true_and]
        unfold Rec.head
        simp only
        rw [← hh.host, ← hport]
      · intro hc
        simp only [Bool.and_eq_true, List.isEmpty_iff] at hc
        have := (hh.empty hc.2).1
        rw [hc.1] at this; cases this
    have : sHostGo env none t (restStr u) { u.head with host := none, port := none } =
        .to .pathStart (restStr u) u.head := by
      rw [← key]
      unfold sHostGo
      split
      · rename_i heq; rw [heq]; rfl
      · rename_i c cs heq
        have := restStr_head hp c (by rw [heq]; rfl)
        rw [if_neg (by omega), heq]; rfl
    dsimp only
    rw [this]
    exact eval_pathStart hw hp hne
  | some n =>
    have hs : u.serializePort = 58 :: natDec n := by unfold Rec.serializePort; rw [hport]
    rw [hs, List.cons_append, hh.text.span _ _ fun c hc => .inl (by simpa using hc.symm)]
    have htne : t ≠ [] := by
      intro ht
      have := (hh.empty ht).2
      rw [hport] at this; cases this
    unfold sHostGo
    dsimp only
    rw [if_pos rfl, if_neg (by simpa using htne), if_neg (by simp), e1, hh.parse]
    have : ({ u.head with host := some h, port := none } : Rec) = { u.head with port := none } := by
      unfold Rec.head; simp only; rw [← hh.host]
    show eval env .utf8 base none .port (natDec n ++ restStr u) { u.head with host := some h, port := none } = _
    rw [this]
    exact eval_port he hw hp hne hport (hh.port n hport)

/-! ### Credentials -/

theorem addCreds_text {u v : Rec} (hu : ∀ c ∈ u.username, safeUserinfo c = true)
    (hpw : ∀ c ∈ u.password, safeUserinfo c = true) (hv : v.username = [] ∧ v.password = []) :
    addCreds v (u.username ++ (if u.password.isEmpty then [] else c!":" :: u.password)) =
      { v with username := u.username, password := u.password } := by
  have hc : ∀ c ∈ u.username, c ≠ 58 := by
    intro c hc
    have := hu c hc
    safe_simp at this; omega
  have hc58 : 58 ∉ u.username := fun h => hc 58 h rfl
  unfold addCreds
  split
  · rename_i heq
    rw [splitAtFirst_none] at heq
    have hpn : u.password = [] := by
      cases h : u.password with
      | nil => rfl
      | cons x xs => rw [h] at heq; simp at heq
    rw [hpn, List.isEmpty_nil, if_pos rfl, List.append_nil, userinfo_fixed hu, hv.1, List.nil_append, ← hv.2]
  · rename_i a b heq
    cases h : u.password with
    | nil =>
      rw [h] at heq
      simp only [List.isEmpty_nil, if_true, List.append_nil] at heq
      rw [splitAtFirst_none.2 hc58] at heq; cases heq
    | cons x xs =>
      rw [h] at heq
      simp only [List.isEmpty_cons, Bool.false_eq_true, if_false] at heq
      rw [splitAtFirst_append hc58] at heq
      simp only [Option.some.injEq, Prod.mk.injEq] at heq
      obtain ⟨rfl, rfl⟩ := heq
      rw [userinfo_fixed hu, ← h, userinfo_fixed hpw, hv.1, hv.2, List.nil_append, List.nil_append]

theorem notEnd_of {sp : Bool} {c : Nat} (h : c ≠ 35 ∧ c ≠ 47 ∧ c ≠ 63 ∧ c ≠ 92) : notEnd sp c = true := by
  simp [notEnd, authorityEnd_false h]

theorem port_chars (u : Rec) : ∀ c ∈ u.serializePort, c = 58 ∨ isDigit c = true := by
  intro c hc
  unfold Rec.serializePort at hc
  split at hc
  · simp at hc
  · rcases List.mem_cons.1 hc with hc | hc
    · exact .inl hc
    · exact .inr (natDec_digits _ c hc)

theorem port_chars' (u : Rec) : ∀ c ∈ u.serializePort, c ≠ 35 ∧ c ≠ 47 ∧ c ≠ 63 ∧ c ≠ 64 ∧ c ≠ 92 := by
  intro c hc
  rcases port_chars u c hc with h | h
  · omega
  · rw [isDigit_iff] at h; omega

/-- the authority state -/
theorem eval_authority {base : Option Rec} (he : EnvOK env) {u : Rec} (hw : PartsOK u) {p : List Str}
    (hp : u.path = .list p) (hne : u.isSpecial = true → p ≠ []) {t : Str} {h : Host} (hh : HPOK env u t h)
    (hu : ∀ c ∈ u.username, safeUserinfo c = true) (hpw : ∀ c ∈ u.password, safeUserinfo c = true)
    (hcr : t = [] → u.username = [] ∧ u.password = []) :
    eval env .utf8 base none .authority (u.serializeCredentials ++ (t ++ (u.serializePort ++ restStr u)))
      { scheme := u.scheme } = (.ok (), u) := by
  rw [eval_step _ _ _ _ (by decide)]
  show (sAuthority (u.serializeCredentials ++ (t ++ (u.serializePort ++ restStr u))) { scheme := u.scheme }).andThen
    env .utf8 base none = _
  have e1 : ({ scheme := u.scheme } : Rec).isSpecial = u.isSpecial := rfl
  have hend : ∀ c, (restStr u).head? = some c → notEnd u.isSpecial c = false := by
    intro c hc
    simp [notEnd, restStr_end hp u.isSpecial c hc]
  have hpc := port_chars' u
  have htc := hh.text.chars
  have hui : ∀ c, safeUserinfo c = true → c ≠ 35 ∧ c ≠ 47 ∧ c ≠ 63 ∧ c ≠ 64 ∧ c ≠ 92 := by
    intro c hc
    safe_simp at hc; omega
  have hcc : ∀ c ∈ u.serializeCredentials, c ≠ 35 ∧ c ≠ 47 ∧ c ≠ 63 ∧ c ≠ 92 := by
    intro c hc
    unfold Rec.serializeCredentials at hc
    split at hc
    · simp only [List.mem_append] at hc
      rcases hc with (hc | hc) | hc
      · have := hui c (hu c hc); omega
      · split at hc
        · simp at hc
        · rcases List.mem_cons.1 hc with hc | hc
          · omega
          · have := hui c (hpw c hc); omega
      · simp at hc; omega
    · simp at hc
  have hall : ∀ c ∈ u.serializeCredentials ++ (t ++ u.serializePort), notEnd u.isSpecial c = true := by
    intro c hc
    simp only [List.mem_append] at hc
    rcases hc with hc | hc | hc
    · exact notEnd_of (hcc c hc)
    · have := htc c hc; exact notEnd_of (by omega)
    · have := hpc c hc; exact notEnd_of (by omega)
  have hsplit : u.serializeCredentials ++ (t ++ (u.serializePort ++ restStr u)) =
      (u.serializeCredentials ++ (t ++ u.serializePort)) ++ restStr u := by simp
  have h64 : 64 ∉ t ++ u.serializePort := by
    intro hc
    rcases List.mem_append.1 hc with hc | hc
    · have := htc 64 hc; omega
    · have := hpc 64 hc; omega
  unfold sAuthority
  dsimp only
  rw [e1, hsplit, takeWhile_append hall hend, dropWhile_append hall hend]
  cases hcred : u.includesCredentials with
  | false =>
    have hcs : u.serializeCredentials = [] := by unfold Rec.serializeCredentials; rw [hcred]; simp
    have hemp : u.username = [] ∧ u.password = [] := by
      simpa [Rec.includesCredentials] using hcred
    rw [hcs, List.nil_append, splitAtLast_none.2 h64]
    dsimp only
    have : ({ scheme := u.scheme } : Rec) = { u.head with host := none, port := none } := by
      unfold Rec.head; simp only; rw [hemp.1, hemp.2]
    rw [this, List.append_assoc]
    exact eval_host he hw hp hne hh
  | true =>
    have hcs : u.serializeCredentials ++ (t ++ u.serializePort) =
        (u.username ++ (if u.password.isEmpty then [] else c!":" :: u.password)) ++ 64 :: (t ++ u.serializePort) := by
      unfold Rec.serializeCredentials; rw [hcred]; simp
    have htne : t ≠ [] := by
      intro ht
      have := hcr ht
      simp [Rec.includesCredentials, this.1, this.2] at hcred
    rw [hcs, splitAtLast_append h64]
    dsimp only
    rw [if_neg (by simp [htne]), addCreds_text hu hpw ⟨rfl, rfl⟩, List.append_assoc]
    exact eval_host he hw hp hne hh

/-! ### The whole -/

theorem isSchemeChar_colon : isSchemeChar 58 = false := by decide

theorem takeScheme_text {sc : Str} (h : SchemeOK sc) (r : Str) : takeScheme (sc ++ 58 :: r) = some (sc, r) := by
  obtain ⟨c, cs, rfl, hc, hcs⟩ := h
  have h1 : ∀ x ∈ cs, isSchemeChar x = true := fun x hx => (hcs x hx).1
  have h2 : ∀ x, (58 :: r : Str).head? = some x → isSchemeChar x = false := by
    intro x hx
    simp at hx; subst hx; decide
  rw [List.cons_append]
  unfold takeScheme
  dsimp only
  rw [if_neg (by simp [isAlpha]; omega), dropWhile_append h1 h2, takeWhile_append h1 h2]
  dsimp only
  rw [if_pos rfl]
  have : lower (c :: cs) = c :: cs := by
    unfold lower
    conv => rhs; rw [← List.map_id (c :: cs)]
    apply List.map_congr_left
    intro x hx
    have hx' : ¬ (65 ≤ x ∧ x ≤ 90) := by
      rcases List.mem_cons.1 hx with rfl | hx
      · omega
      · exact (hcs x hx).2
    unfold lowerC
    rw [if_neg (by simpa using hx')]; rfl
  rw [this]

/-- the record with the address of an IPv4 host reduced to 32 bits -/
def Rec.canon (u : Rec) : Rec := { u with host := u.host.map Host.canon }

theorem dropWhile_slash {s : Str} (h : ∀ c, s.head? = some c → c ≠ 47 ∧ c ≠ 92) : s.dropWhile isSlash = s := by
  apply dropWhile_none
  intro c hc
  simp [isSlash, h c hc]

theorem creds_head {u : Rec} (hu : ∀ c ∈ u.username, safeUserinfo c = true)
    (hpw : ∀ c ∈ u.password, safeUserinfo c = true) {x : Str} (hx : ∀ c, x.head? = some c → c ≠ 47 ∧ c ≠ 92) :
    ∀ c, (u.serializeCredentials ++ x).head? = some c → c ≠ 47 ∧ c ≠ 92 := by
  intro c hc
  have key : ∀ c, safeUserinfo c = true → c ≠ 47 ∧ c ≠ 92 := by
    intro c hc; safe_simp at hc; omega
  unfold Rec.serializeCredentials at hc
  split at hc
  · cases hun : u.username with
    | cons y ys =>
      rw [hun] at hc
      simp only [List.cons_append, List.head?_cons, Option.some.injEq] at hc
      subst hc
      exact key y (hu y (by rw [hun]; simp))
    | nil =>
      rw [hun] at hc
      split at hc
      · simp at hc; omega
      · simp at hc; omega
  · exact hx c hc

theorem eval_authority_slashes {base : Option Rec} (he : EnvOK env) {u : Rec} (hw : PartsOK u) {p : List Str}
    (hp : u.path = .list p) (hne : p ≠ []) {t : Str} {h : Host} (hh : HPOK env u t h)
    (hu : ∀ c ∈ u.username, safeUserinfo c = true) (hpw : ∀ c ∈ u.password, safeUserinfo c = true)
    (ht : t ≠ []) :
    eval env .utf8 base none .specialAuthorityIgnoreSlashes
      (u.serializeCredentials ++ (t ++ (u.serializePort ++ restStr u))) { scheme := u.scheme } = (.ok (), u) := by
  rw [eval_step _ _ _ _ (by decide)]
  show eval env .utf8 base none .authority (List.dropWhile isSlash _) _ = _
  rw [dropWhile_slash]
  · exact eval_authority he hw hp (fun _ => hne) hh hu hpw (fun h => absurd h ht)
  · apply creds_head hu hpw
    intro c hc
    have : c ∈ t := by
      cases t with
      | nil => exact absurd rfl ht
      | cons x xs => simp at hc; simp [hc]
    have := hh.text.chars c this
    omega

/-- the file states on the text behind "file:" -/
theorem eval_file {base : Option Rec} (he : EnvOK env) {u : Rec} (hw : PartsOK u) {p : List Str}
    (hp : u.path = .list p) (hne : p ≠ []) {t : Str} {h : Host} (hhost : u.host = some h) (htext : HostText t)
    (hparse : (hostParse env t (!u.isSpecial)).res = .ok h) (hloc : h ≠ .str u!"localhost")
    (hf : u.scheme = u!"file") (hb : u.username = [] ∧ u.password = [] ∧ u.port = none) (ht : t = [] → h = .str []) :
    eval env .utf8 base none .file (u!"//" ++ (t ++ restStr u)) { scheme := u.scheme } = (.ok (), u) := by
  rw [eval_step _ _ _ _ (by decide)]
  show eval env .utf8 base none .fileSlash (47 :: (t ++ restStr u)) _ = _
  rw [eval_step _ _ _ _ (by decide)]
  show eval env .utf8 base none .fileHost (t ++ restStr u) _ = _
  rw [eval_step _ _ _ _ (by decide)]
  have hall : ∀ c ∈ t, notFileHostEnd c = true := by
    intro c hc
    have := htext.chars c hc
    simp [notFileHostEnd]; omega
  have hend : ∀ c, (restStr u).head? = some c → notFileHostEnd c = false := by
    intro c hc
    rcases restStr_head hp c hc with rfl | rfl | rfl <;> decide
  show (sFileHost env none (t ++ restStr u) _).andThen env .utf8 base none = _
  unfold sFileHost
  rw [takeWhile_append hall hend, dropWhile_append hall hend]
  have hhead : ({ scheme := u!"file", host := some h } : Rec) = u.head := by
    unfold Rec.head
    rw [hf, hb.1, hb.2.1, hb.2.2, hhost]
  have : sFileHostEnd env false t (restStr u) { scheme := u!"file", host := some (.str []) } =
      .to .pathStart (restStr u) u.head := by
    unfold sFileHostEnd
    rw [htext.drive, if_neg (by simp)]
    split
    · rename_i h0
      rw [List.isEmpty_iff] at h0
      rw [← hhead, ht h0]; rfl
    · have e1 : ({ scheme := u!"file", host := some (.str []) } : Rec).isSpecial = u.isSpecial := by
        unfold Rec.isSpecial; rw [hf]
      rw [e1, hparse]
      dsimp only
      rw [if_neg hloc, ← hhead]; rfl
  show (sFileHostEnd env false t (restStr u) { scheme := u!"file", host := some (.str []) }).andThen
    env .utf8 base none = _
  rw [this]
  exact eval_pathStart hw hp (fun _ => hne)

/-- the record obtained from a URL whose path is opaque -/
theorem eval_opaque {base : Option Rec} {u : Rec} {s : Str} (hp : u.path = .opaque s) (ho : OpaqueOK s)
    (hq : QueryWF u) (hf : FragWF u) :
    eval env .utf8 base none .opaquePath (restStr u)
      { u with path := .opaque [], query := none, fragment := none } = (.ok (), u) := by
  rw [eval_step _ _ _ _ (by decide)]
  show (sOpaquePath (restStr u) _).andThen env .utf8 base none = _
  unfold sOpaquePath restStr
  have h1 : ∀ c ∈ s, notQF c = true := fun c hc => (ho.chars c hc).2
  rw [hp]
  show (afterPath .eof ((s ++ tailStr u.query u.fragment).dropWhile notQF) _).andThen env .utf8 base none = _
  have e1 : (s ++ tailStr u.query u.fragment).takeWhile notQF = s := takeWhile_append h1 (notQF_tail _ _)
  have e2 : (s ++ tailStr u.query u.fragment).dropWhile notQF = tailStr u.query u.fragment :=
    dropWhile_append h1 (notQF_tail _ _)
  rw [e2]
  have e3 : (serializePath (.opaque s) ++ tailStr u.query u.fragment).takeWhile notQF = s := e1
  rw [e3, opaque_fixed fun c hc => (ho.chars c hc).1]
  have e4 : Path.addText (.opaque []) s = u.path := by rw [hp]; rfl
  rw [e4]
  exact eval_afterPath (eval_eof ..) rfl rfl (fun t ht => hq t ht) (fun t ht => hf t ht) rfl

theorem SegOK_slash {sp : Bool} {s : Str} (h : SegOK sp s) : 47 ∉ s := by
  intro hc
  have := (h.chars 47 hc).2
  rw [isPathSep_slash] at this; cases this

/-- the path of a record without host -/
theorem eval_nohost {base : Option Rec} {u : Rec} (hw : PartsOK u) {p : List Str}
    (hp : u.path = .list p) (hne : p ≠ []) (hh : u.host = none)
    (hb : u.username = [] ∧ u.password = [] ∧ u.port = none) :
    ∃ r, ((if u.needsDot then u!"/." else []) ++ restStr u) = 47 :: r ∧
      eval env .utf8 base none .pathOrAuthority r { scheme := u.scheme } = (.ok (), u) := by
  have hhead : ({ scheme := u.scheme } : Rec) = u.head := by
    unfold Rec.head; rw [hb.1, hb.2.1, hb.2.2, hh]
  have hs := hw.segs p hp
  cases p with
  | nil => exact absurd rfl hne
  | cons s ss =>
    have hrest : restStr u = 47 :: (s ++ serializePath (.list ss) ++ tailStr u.query u.fragment) := by
      unfold restStr; rw [hp]; simp [serializePath]
    rw [hhead]
    by_cases hd : u.needsDot = true
    · rw [if_pos hd, hrest]
      refine ⟨46 :: 47 :: (s ++ serializePath (.list ss) ++ tailStr u.query u.fragment), rfl, ?_⟩
      rw [eval_step _ _ _ _ (by decide)]
      show (sPathOrAuthority _ _).andThen env .utf8 base none = _
      unfold sPathOrAuthority
      rw [if_neg (by simp)]
      show eval env .utf8 base none .path ((u!"./" ++ (s ++ serializePath (.list ss))) ++ tailStr u.query u.fragment) _ = _
      refine eval_path hw hp ?_ ?_
      · intro c hc
        simp only [List.mem_append] at hc
        rcases hc with hc | hc | hc
        · simp at hc; rcases hc with rfl | rfl <;> decide
        · exact notQF_seg (hs.segs s (by simp)) c hc
        · exact notQF_segs (fun x hx => hs.segs x (by simp [hx])) c hc
      · have : u!"./" ++ (s ++ serializePath (.list ss)) = [46] ++ 47 :: (s ++ serializePath (.list ss)) := rfl
        rw [this, pathPieces_append (by
          intro c hc
          simp at hc; subst hc
          cases u.isSpecial <;> decide)]
        rw [pathPieces_segs (sp := u.isSpecial) fun x hx c hc => ((hs.segs x hx).chars c hc).2]
        unfold addPieces
        have e : addSegment u.scheme [] [46] true = [] := by
          unfold addSegment
          rw [show utf8PercentEncode [46] safePath = [46] from by decide]
          rfl
        rw [e]
        exact addPieces_id _ hs
    · rw [if_neg hd, hrest]
      refine ⟨s ++ serializePath (.list ss) ++ tailStr u.query u.fragment, rfl, ?_⟩
      rw [eval_step _ _ _ _ (by decide)]
      show (sPathOrAuthority _ _).andThen env .utf8 base none = _
      unfold sPathOrAuthority
      rw [if_neg]
      · exact eval_path_segs hw hp
      · intro hhd
        cases s with
        | cons x xs =>
          simp at hhd
          subst hhd
          exact SegOK_slash (hs.segs (47 :: xs) (by simp)) (by simp)
        | nil =>
          cases ss with
          | nil =>
            have := tailStr_head u.query u.fragment 47 (by simpa [serializePath] using hhd)
            omega
          | cons y ys =>
            apply hd
            unfold Rec.needsDot
            rw [hh, hp]; rfl

/-- Parsing what the serializer writes gives the record back, up to the 32 bits of an IPv4 address. -/
theorem eval_serialize {base : Option Rec} (he : EnvOK env) (hi : IdnaOK env) {u : Rec} (hw : WF true (HostWF env) u) :
    eval env .utf8 base none .schemeStart u.serialize {} = (.ok (), u.canon) := by
  have hser : u.serialize = u.scheme ++ 58 :: ((match u.host with
      | some h => u!"//" ++ u.serializeCredentials ++ hostSerialize h ++ u.serializePort
      | none => []) ++ ((if u.needsDot then u!"/." else []) ++ restStr u)) := by
    rw [serialize_split]
    unfold Rec.beforePath restStr
    simp only [List.append_assoc]
    rfl
  rw [hser, eval_step _ _ _ _ (by decide)]
  show (sScheme base none _ {}).andThen env .utf8 base none = _
  unfold sScheme
  rw [takeScheme_text hw.auth.scheme]
  dsimp only [Option.isSome]
  rw [if_neg (by simp)]
  have e1 : ({ scheme := u.scheme } : Rec).isSpecial = u.isSpecial := rfl
  have hparts := hw.parts
  have hcanon : PartsOK u.canon := ⟨hparts.segs, hparts.query, hparts.frag⟩
  cases hh : u.host with
  | none =>
    have hb := hw.auth.bare (.inl hh)
    have hns : u.isSpecial = false := by
      cases h : u.isSpecial
      · rfl
      · exact absurd hh (hw.auth.special h).1
    have hnf : u.scheme ≠ u!"file" := not_file_of_not_special hns
    have hcu : u.canon = u := by unfold Rec.canon; rw [hh]; simp only [Option.map_none]; rw [← hh]
    rw [if_neg hnf, e1, hns, if_neg (by simp), List.nil_append, hcu]
    cases hp : u.path with
    | list p =>
      have hpne : p ≠ [] := by
        have := hw.path
        unfold PathWF at this
        rw [hp] at this
        exact this.2.2 hh
      obtain ⟨r, hr, hev⟩ := eval_nohost (env := env) (base := base) hparts hp hpne hh hb
      rw [hr]
      simp only [List.head?_cons, if_true, List.tail_cons]
      exact hev
    | «opaque» s =>
      have ho : OpaqueOK s := by
        have := hw.path
        unfold PathWF at this
        rw [hp] at this
        exact this.1
      have hnd : u.needsDot = false := by unfold Rec.needsDot; rw [hp]; simp
      have ed : (if u.needsDot then u!"/." else []) ++ restStr u = restStr u := by rw [hnd]; rfl
      rw [ed, if_neg]
      · have : ({ scheme := u.scheme, path := .opaque [] } : Rec) =
            { u with path := .opaque [], query := none, fragment := none } := by
          rw [hb.1, hb.2.1, hb.2.2, hh]
        show eval env .utf8 base none .opaquePath (restStr u) { scheme := u.scheme, path := .opaque [] } = _
        rw [this]
        exact eval_opaque hp ho hw.query hw.frag
      · intro hhd
        unfold restStr at hhd
        rw [hp] at hhd
        cases s with
        | nil =>
          have := tailStr_head u.query u.fragment 47 hhd
          omega
        | cons x xs =>
          have h2 := ho.head
          simp [serializePath] at hhd
          subst hhd
          exact h2 rfl
  | some h =>
    have hnd : u.needsDot = false := by unfold Rec.needsDot; rw [hh]; simp
    have hwf := hw.auth.host h hh
    obtain ⟨p, hp⟩ : ∃ p, u.path = .list p := by
      cases hp : u.path with
      | list p => exact ⟨p, rfl⟩
      | «opaque» s =>
        have := hw.path
        unfold PathWF at this
        rw [hp, hh] at this
        cases this.2
    have hpsp : u.isSpecial = true → p ≠ [] := by
      have := hw.path
      unfold PathWF at this
      rw [hp] at this
      exact this.2.1
    have hparse := hostParse_serialize he hi hwf
    have ed : (if u.needsDot then u!"/." else []) ++ restStr u = restStr u := by rw [hnd]; rfl
    rw [ed]
    dsimp only
    have hpc : u.canon.path = .list p := hp
    have hch : u.canon.host = some h.canon := by unfold Rec.canon; rw [hh]; rfl
    have hempty : hostSerialize h = [] → h = .str [] := hostSerialize_nil
    have hHP : (u.scheme ≠ u!"file" ∨ True) → (hostSerialize h = [] → u.isSpecial = false ∧ u.port = none) →
        HPOK env u.canon (hostSerialize h) h.canon := fun _ hx =>
      ⟨hch, hwf.text, hparse, hx, hw.auth.port⟩
    by_cases hf : u.scheme = u!"file"
    · have hb := hw.auth.bare (.inr (.inr hf))
      have hcs : u.serializeCredentials = [] := by
        unfold Rec.serializeCredentials Rec.includesCredentials
        rw [hb.1, hb.2.1]; simp
      have hps : u.serializePort = [] := by unfold Rec.serializePort; rw [hb.2.2]
      rw [if_pos hf, hcs, hps, List.append_nil, List.append_nil, List.append_assoc]
      have hsp : u.isSpecial = true := by unfold Rec.isSpecial; rw [hf]; decide
      refine eval_file (u := u.canon) he hcanon hpc (hpsp hsp) hch hwf.text hparse ?_ hf hb ?_
      · intro hl
        have := hw.auth.file rfl hf
        rw [hh] at this
        apply this
        cases h with
        | str s => exact congrArg some hl
        | ipv4 n => cases hl
        | ipv6 a => cases hl
      · intro h0
        rw [hempty h0]; rfl
    · rw [if_neg hf]
      have hassoc : u!"//" ++ u.serializeCredentials ++ hostSerialize h ++ u.serializePort ++ restStr u =
          47 :: 47 :: (u.serializeCredentials ++ (hostSerialize h ++ (u.serializePort ++ restStr u))) := by
        simp
      rw [hassoc, e1]
      cases hsp : u.isSpecial with
      | true =>
        have hne : hostSerialize h ≠ [] := by
          intro h0
          apply hf
          exact (hw.auth.special hsp).2 (by rw [hh, hempty h0])
        simp only [if_true]
        have fin : ∀ st, (st = .specialRelativeOrAuthority ∨ st = .specialAuthoritySlashes) →
            eval env .utf8 base none st
              (47 :: 47 :: (u.serializeCredentials ++ (hostSerialize h ++ (u.serializePort ++ restStr u))))
              { scheme := u.scheme } = (.ok (), u.canon) := by
          intro st hst
          have hnext : sstep env .utf8 base none st
              (47 :: 47 :: (u.serializeCredentials ++ (hostSerialize h ++ (u.serializePort ++ restStr u))))
              { scheme := u.scheme } = .to .specialAuthorityIgnoreSlashes
                (u.serializeCredentials ++ (hostSerialize h ++ (u.serializePort ++ restStr u)))
                { scheme := u.scheme } := by
            rcases hst with rfl | rfl
            · show sSpecialRelativeOrAuthority _ _ = _
              unfold sSpecialRelativeOrAuthority
              simp
            · show sSpecialAuthoritySlashes _ _ = _
              unfold sSpecialAuthoritySlashes
              simp
          rw [eval_step _ _ _ _ (by rcases hst with rfl | rfl <;> decide), hnext]
          exact eval_authority_slashes (u := u.canon) he hcanon hpc (hpsp hsp)
            (hHP (.inr trivial) (fun h0 => absurd h0 hne)) hw.auth.user hw.auth.pass hne
        cases base with
        | none => exact fin _ (.inr rfl)
        | some b =>
          dsimp only
          by_cases hb : (b.scheme == u.scheme) = true
          · rw [if_pos hb]; exact fin _ (.inl rfl)
          · rw [if_neg hb]; exact fin _ (.inr rfl)
      | false =>
        have hbare : hostSerialize h = [] → u.username = [] ∧ u.password = [] ∧ u.port = none :=
          fun h0 => hw.auth.bare (.inr (.inl (by rw [hh, hempty h0])))
        simp only [Bool.false_eq_true, if_false, List.head?_cons, if_true, List.tail_cons]
        show eval env .utf8 base none .pathOrAuthority _ _ = _
        rw [eval_step _ _ _ _ (by decide)]
        show (sPathOrAuthority _ _).andThen env .utf8 base none = _
        unfold sPathOrAuthority
        simp only [List.head?_cons, if_true, List.tail_cons]
        exact eval_authority (u := u.canon) he hcanon hpc hpsp
          (hHP (.inr trivial) (fun h0 => ⟨hsp, (hbare h0).2.2⟩)) hw.auth.user hw.auth.pass
          (fun h0 => ⟨(hbare h0).1, (hbare h0).2.1⟩)

theorem serialize_canon (u : Rec) (b : Bool) : u.canon.serialize b = u.serialize b := by
  unfold Rec.serialize Rec.canon
  cases hh : u.host with
  | none =>
    simp only [Option.map_none]
    have : ({ u with host := none } : Rec) = u := by rw [← hh]
    simp only [this, hh]
  | some h =>
    simp only [Option.map_some, hostSerialize_canon]
    have : ({ u with host := some h.canon } : Rec).needsDot = u.needsDot := by
      unfold Rec.needsDot; rw [hh]; rfl
    simp only [this]
    rfl

theorem serialize_last {u : Rec} (hw : WF true (HostWF env) u) : u.serialize.getLast? ≠ some 32 := by
  have hb := hw.beforePath_print
  have ha := hw.afterPath_print
  intro hl
  rw [serialize_split] at hl
  by_cases hat : u.afterPathStr = []
  · have hqf : u.query = none ∧ u.fragment = none := by
      unfold Rec.afterPathStr at hat
      cases hq : u.query <;> cases hf : u.fragment <;> rw [hq, hf] at hat <;> simp at hat ⊢
    rw [hat, List.append_nil] at hl
    by_cases hpt : serializePath u.path = []
    · rw [hpt, List.append_nil] at hl
      have := hb 32 (List.mem_of_getLast? hl)
      omega
    · rw [List.getLast?_append] at hl
      cases hp : u.path with
      | list segs =>
        have hpr := hw.listPath_print hp
        cases hlast : (serializePath u.path).getLast? with
        | none => rw [List.getLast?_eq_none_iff] at hlast; exact hpt hlast
        | some c =>
          rw [hlast] at hl
          simp at hl
          subst hl
          have := hpr 32 (List.mem_of_getLast? hlast)
          omega
      | «opaque» s =>
        have ht := hw.tail s hp hqf.1 hqf.2
        rw [hp] at hl hpt
        change (Option.or (s.getLast?) _) = _ at hl
        change s ≠ [] at hpt
        cases hlast : s.getLast? with
        | none => rw [List.getLast?_eq_none_iff] at hlast; exact hpt hlast
        | some c =>
          rw [hlast] at hl
          simp at hl
          subst hl
          exact ht hlast
  · rw [List.getLast?_append] at hl
    cases hlast : u.afterPathStr.getLast? with
    | none => rw [List.getLast?_eq_none_iff] at hlast; exact hat hlast
    | some c =>
      rw [hlast] at hl
      simp at hl
      subst hl
      have := ha 32 (List.mem_of_getLast? hlast)
      omega

theorem prepared_serialize {u : Rec} (hw : WF true (HostWF env) u) : prepared u.serialize none = u.serialize := by
  apply prepared_id
  · intro c hc
    have := hw.hrefOK.1 c hc
    unfold Spec.Printable at this
    omega
  · obtain ⟨c, cs, hsc, hc, _⟩ := hw.auth.scheme
    intro hh
    rw [serialize_split] at hh
    unfold Rec.beforePath at hh
    rw [hsc] at hh
    simp at hh
    omega
  · exact serialize_last hw

/-- `parse_url(u.href)`, with or without a base -/
theorem basicParse_serialize {base : Option Rec} (he : EnvOK env) (hi : IdnaOK env) {u : Rec} (hw : WF true (HostWF env) u) :
    (basicParse env u.serialize base .utf8).toExcept = .ok u.canon := by
  rw [basicParse_toExcept, prepared_serialize hw, eval_serialize he hi hw]
  rfl

end Urlstd
