/-
The serialization of a well-formed record, read as RFC 3986 reads a URI (C85).
-/
import Verif.Spec.Generic
import Verif.Lemmas.Injective
import Verif.Lemmas.Rfc3986
import Verif.Lemmas.Serialize

set_option linter.unusedSimpArgs false
set_option linter.unusedVariables false

namespace Urlstd

open Spec.Rfc

variable {env : Env}

theorem schemeGroup_eq {s r : Str} (h : SchemeOK s) : schemeGroup (s ++ 58 :: r) = (some s, r) := by
  have hs : ∀ c ∈ s, (!(u!":/?#").contains c) = true := by
    obtain ⟨c, cs, rfl, hc, hcs⟩ := h
    intro x hx
    have key : x ≠ 58 ∧ x ≠ 47 ∧ x ≠ 63 ∧ x ≠ 35 := by
      rcases List.mem_cons.1 hx with rfl | hx
      · omega
      · have := (hcs x hx).1
        refine ⟨?_, ?_, ?_, ?_⟩ <;> (rintro rfl; exact absurd this (by decide))
    simp [key]
  have hr : ∀ c, ((58 :: r : Str)).head? = some c → (!(u!":/?#").contains c) = false := by
    intro c hc
    cases hc
    decide
  have hne : s ≠ [] := by
    obtain ⟨c, cs, rfl, -⟩ := h
    simp
  unfold schemeGroup
  rw [takeWhile_append hs hr, dropWhile_append hs hr]
  simp [hne]

theorem authorityGroup_some {a r : Str} (ha : ∀ c ∈ a, authorityStop c = false)
    (hr : ∀ c, r.head? = some c → authorityStop c = true) : authorityGroup (47 :: 47 :: (a ++ r)) = (some a, r) := by
  have e : (fun c => !(u!"/?#").contains c) = fun c => !authorityStop c := by
    funext c
    unfold authorityStop
    rw [Bool.eq_iff_iff]; simp [and_assoc]
  show (some ((a ++ r).takeWhile fun c => !(u!"/?#").contains c), (a ++ r).dropWhile fun c => !(u!"/?#").contains c) = _
  rw [e, takeWhile_append (fun c hc => by simp [ha c hc]) (fun c hc => by simp [hr c hc]),
    dropWhile_append (fun c hc => by simp [ha c hc]) (fun c hc => by simp [hr c hc])]

theorem authorityGroup_none {s : Str} (h : ∀ t, s ≠ 47 :: 47 :: t) : authorityGroup s = (none, s) := by
  unfold authorityGroup
  split
  · exact absurd rfl (h _)
  · rfl

/-- path, query and fragment -/
theorem tail_groups {p : Str} {q f : Option Str} (hp : ∀ c ∈ p, notQF c = true) (hq : ∀ x, q = some x → 35 ∉ x) :
    ((p ++ tailStr q f).takeWhile fun c => !(u!"?#").contains c) = p ∧
      queryGroup ((p ++ tailStr q f).dropWhile fun c => !(u!"?#").contains c) = (q, tailStr none f) ∧
      fragmentGroup (tailStr none f) = f := by
  have e : (fun c => !(u!"?#").contains c) = notQF := by
    funext c
    unfold notQF
    simp [List.contains_cons, bne]
  have ht : ∀ c, (tailStr q f).head? = some c → notQF c = false := notQF_tail q f
  rw [e, takeWhile_append hp ht, dropWhile_append hp ht]
  refine ⟨rfl, ?_, ?_⟩
  · cases q with
    | none => cases f <;> rfl
    | some q =>
      have e2 : tailStr (some q) f = 63 :: (q ++ tailStr none f) := by simp [tailStr]
      have hne : ∀ c ∈ q, (c != 35) = true := by
        intro c hc
        have : c ≠ 35 := fun h => hq q rfl (h ▸ hc)
        simpa using this
      have hf : ∀ c, (tailStr none f).head? = some c → (c != 35) = false := by
        intro c hc
        cases f with
        | none => cases hc
        | some f => simp [tailStr] at hc; simp [← hc]
      rw [e2]
      show (some ((q ++ tailStr none f).takeWhile (· != 35)), (q ++ tailStr none f).dropWhile (· != 35)) = _
      rw [takeWhile_append hne hf, dropWhile_append hne hf]
  · cases f <;> rfl

/-- the path as it is written: "/." in front of a path that would be taken for an authority -/
def writtenPath (u : Rec) : Str := (if u.needsDot then u!"/." else []) ++ serializePath u.path

theorem writtenPath_chars {k : Bool} {P : Bool → Host → Prop} {u : Rec} (hw : WF k P u) :
    ∀ c ∈ writtenPath u, notQF c = true := by
  intro c hc
  unfold writtenPath at hc
  rcases List.mem_append.1 hc with hc | hc
  · split at hc
    · simp only [List.mem_cons, List.not_mem_nil, or_false] at hc
      rcases hc with rfl | rfl <;> decide
    · cases hc
  · have hp := hw.path
    unfold PathWF at hp
    split at hp
    · rename_i p hpath
      rw [hpath] at hc
      exact notQF_segs hp.1.segs c hc
    · rename_i p hpath
      rw [hpath] at hc
      exact (hp.1.chars c hc).2

theorem querySafe_hash {sp : Bool} {c : Nat} (h : querySafe sp c = true) : c ≠ 35 := by
  rintro rfl
  revert h
  cases sp <;> decide

theorem split_serialize {k : Bool} {u : Rec} (hw : WF k (HostWF env) u) :
    split u.serialize =
      { scheme := some u.scheme, authority := u.host.map (authText u), path := writtenPath u,
        query := u.query, fragment := u.fragment } := by
  have hq : ∀ x, u.query = some x → 35 ∉ x := fun x hx hc => querySafe_hash (hw.query x hx _ hc) rfl
  obtain ⟨t1, t2, t3⟩ := tail_groups (f := u.fragment) (writtenPath_chars hw) hq
  unfold split
  rw [serialize_pastScheme, schemeGroup_eq hw.auth.scheme]
  dsimp only
  have key : authorityGroup (pastScheme u) =
      (u.host.map (authText u), writtenPath u ++ tailStr u.query u.fragment) := by
    cases hh : u.host with
    | none =>
      rw [authorityGroup_none (pastScheme_null hw hh)]
      unfold pastScheme writtenPath restStr
      rw [hh]
      simp
    | some h =>
      obtain ⟨p, hp, e⟩ := pastScheme_host hw hh
      rw [e, authorityGroup_some (authText_chars hw hh) (restStr_stop hp)]
      have : u.needsDot = false := by unfold Rec.needsDot; rw [hh]; rfl
      unfold writtenPath restStr
      rw [this]
      simp
  rw [key]
  dsimp only
  rw [t1, t2]
  dsimp only
  rw [t3]

/-! ### The authority -/

theorem cut_some {c : Nat} {a r : Str} (ha : c ∉ a) : cut c (a ++ c :: r) = (a, some r) := by
  have h1 : ∀ x ∈ a, (x != c) = true := by
    intro x hx
    have : x ≠ c := fun h => ha (h ▸ hx)
    simpa using this
  have h2 : ∀ x, (c :: r : Str).head? = some x → (x != c) = false := by
    intro x hx
    cases hx
    simp
  unfold cut
  rw [takeWhile_append h1 h2, dropWhile_append h1 h2]

theorem cut_none {c : Nat} {a : Str} (ha : c ∉ a) : cut c a = (a, none) := by
  have h1 : ∀ x ∈ a, (x != c) = true := by
    intro x hx
    have : x ≠ c := fun h => ha (h ▸ hx)
    simpa using this
  have h2 : ∀ x, ([] : Str).head? = some x → (x != c) = false := by simp
  unfold cut
  have e1 := takeWhile_append h1 h2
  have e2 := dropWhile_append h1 h2
  rw [List.append_nil] at e1 e2
  rw [e1, e2]

theorem natDec_notMem {n c : Nat} (hc : isDigit c = false) : c ∉ natDec n := by
  intro h
  have := natDec_digits n c h
  rw [hc] at this
  cases this

theorem hostPart_eq {m : Bool} {h : Host} (hw : HostWF env m h) {r : Str} (hr : r = [] ∨ ∃ t, r = 58 :: t) :
    hostPart (hostSerialize h ++ r) = (hostSerialize h, r) := by
  have plain : ∀ s : Str, (∀ c ∈ s, c ≠ 58 ∧ c ≠ 91) → hostPart (s ++ r) = (s, r) := by
    intro s hs
    have h1 : ∀ x ∈ s, (x != 58) = true := fun x hx => by simpa using (hs x hx).1
    have h2 : ∀ x, r.head? = some x → (x != 58) = false := by
      intro x hx
      rcases hr with rfl | ⟨t, rfl⟩ <;> cases hx
      rfl
    unfold hostPart
    rw [if_neg, takeWhile_append h1 h2, dropWhile_append h1 h2]
    intro hh
    cases s with
    | nil => rcases hr with rfl | ⟨t, rfl⟩ <;> cases hh
    | cons x xs => cases hh; exact absurd rfl (hs 91 (by simp)).2
  cases h with
  | str s =>
    refine plain s ?_
    intro c hc
    have : ¬ Spec.ForbiddenHostCP c := by
      rcases hw with rfl | ⟨_, h⟩ | ⟨_, h⟩
      · simp at hc
      · rw [← isForbiddenHost_iff, (h.2 c hc).2.2]; simp
      · have h2 := (h.chars c hc).2
        intro hf
        have : isForbiddenDomain c = true := (isForbiddenDomain_iff c).2 (.inl hf)
        rw [h2] at this; cases this
    unfold Spec.ForbiddenHostCP at this
    simp only [List.mem_cons, List.not_mem_nil, or_false, not_or] at this
    omega
  | ipv4 n =>
    refine plain (ipv4Serialize n) ?_
    intro c hc
    rcases ipv4Serialize_digits n c hc with h | h
    · rw [isDigit_iff] at h; omega
    · omega
  | ipv6 a =>
    have hm := ipv6Serialize_mem hw
    have e : hostSerialize (.ipv6 a) = 91 :: (ipv6Serialize a ++ [93]) := by simp [hostSerialize]
    have h1 : ∀ x ∈ 91 :: ipv6Serialize a, (x != 93) = true := by
      intro x hx
      have : x ≠ 93 := by
        rcases List.mem_cons.1 hx with rfl | hx
        · decide
        · rcases hm x hx with h | h
          · rw [isHex_iff] at h; omega
          · omega
      simpa using this
    have h2 : ∀ x, (93 :: r : Str).head? = some x → (x != 93) = false := by
      intro x hx
      cases hx
      rfl
    have e2 : hostSerialize (.ipv6 a) ++ r = (91 :: ipv6Serialize a) ++ 93 :: r := by rw [e]; simp
    unfold hostPart
    rw [e2, if_pos (show ((91 :: ipv6Serialize a) ++ 93 :: r).head? = some 91 from rfl), takeWhile_append h1 h2, dropWhile_append h1 h2, e]
    rfl

theorem safeUserinfo_sep {c : Nat} (h : safeUserinfo c = true) : c ≠ 58 ∧ c ≠ 64 := by
  constructor <;> (rintro rfl; revert h; decide)

theorem hostPort_at {m : Bool} {h : Host} (hw : HostWF env m h) (u : Rec) : 64 ∉ hostSerialize h ++ u.serializePort := by
  intro hc
  rcases List.mem_append.1 hc with hc | hc
  · exact (hw.text.chars _ hc).2.2.2.1 rfl
  · unfold Rec.serializePort at hc
    split at hc
    · cases hc
    · rcases List.mem_cons.1 hc with hc | hc
      · revert hc; decide
      · exact natDec_notMem (by decide) hc

theorem authority_read {k : Bool} {u : Rec} (hw : WF k (HostWF env) u) {h : Host} (hh : u.host = some h) :
    Authority.read (authText u h) =
      { user := if u.username = [] ∧ u.password = [] then none else some u.username
        password := if u.password = [] then none else some u.password
        host := hostSerialize h
        port := u.port.map natDec } := by
  have hu : 58 ∉ u.username ∧ 64 ∉ u.username :=
    ⟨fun hc => (safeUserinfo_sep (hw.auth.user _ hc)).1 rfl, fun hc => (safeUserinfo_sep (hw.auth.user _ hc)).2 rfl⟩
  have hpw : 64 ∉ u.password := fun hc => (safeUserinfo_sep (hw.auth.pass _ hc)).2 rfl
  have hhost := hw.auth.host h hh
  have hpart : hostPart (hostSerialize h ++ u.serializePort) = (hostSerialize h, u.serializePort) := by
    refine hostPart_eq hhost ?_
    unfold Rec.serializePort
    cases u.port with
    | none => exact .inl rfl
    | some p => exact .inr ⟨_, rfl⟩
  have hport : portPart u.serializePort = u.port.map natDec := by
    unfold Rec.serializePort
    cases u.port <;> rfl
  have hat := hostPort_at hhost u
  unfold Authority.read authText
  rw [List.append_assoc]
  by_cases hb : u.username = [] ∧ u.password = []
  · have : u.serializeCredentials = [] := by
      unfold Rec.serializeCredentials Rec.includesCredentials
      rw [hb.1, hb.2]
      rfl
    rw [this, List.nil_append]
    have : userinfoPart (hostSerialize h ++ u.serializePort) = (none, hostSerialize h ++ u.serializePort) := by
      unfold userinfoPart
      rw [cut_none hat]
    rw [this]
    dsimp only
    rw [hpart]
    dsimp only
    rw [hport]
    simp [hb]
  · let x := u.username ++ (if u.password.isEmpty then [] else c!":" :: u.password)
    have hx : u.serializeCredentials = x ++ [64] := by
      unfold Rec.serializeCredentials Rec.includesCredentials
      rw [if_pos]
      cases h1 : u.username <;> cases h2 : u.password <;> simp_all
    have h64 : 64 ∉ x := by
      intro hc
      rcases List.mem_append.1 hc with hc | hc
      · exact hu.2 hc
      · split at hc
        · cases hc
        · rcases List.mem_cons.1 hc with hc | hc
          · revert hc; decide
          · exact hpw hc
    have : userinfoPart (x ++ [64] ++ (hostSerialize h ++ u.serializePort)) = (some x, hostSerialize h ++ u.serializePort) := by
      unfold userinfoPart
      rw [List.append_assoc, List.singleton_append, cut_some h64]
    rw [hx, this]
    dsimp only
    rw [hpart]
    dsimp only
    rw [hport, if_neg hb]
    have hcut : cut 58 x = (u.username, if u.password = [] then none else some u.password) := by
      show cut 58 (u.username ++ _) = _
      by_cases hp : u.password = []
      · rw [hp]
        simp [cut_none hu.1]
      · have : u.password.isEmpty = false := by simpa using hp
        rw [this, if_neg (by simp), if_neg hp]
        exact cut_some hu.1
    simp [hcut]

theorem authText_at {k : Bool} {u : Rec} (hw : WF k (HostWF env) u) {h : Host} (hh : u.host = some h) :
    (authText u h).count 64 ≤ 1 := by
  have hu : 64 ∉ u.username := fun hc => (safeUserinfo_sep (hw.auth.user _ hc)).2 rfl
  have hpw : 64 ∉ u.password := fun hc => (safeUserinfo_sep (hw.auth.pass _ hc)).2 rfl
  have hat := hostPort_at (hw.auth.host h hh) u
  unfold authText
  rw [List.append_assoc, List.count_append, List.count_eq_zero_of_not_mem hat]
  unfold Rec.serializeCredentials
  split
  · rw [List.count_append, List.count_append, List.count_eq_zero_of_not_mem hu]
    split
    · simp
    · rw [List.count_cons, List.count_eq_zero_of_not_mem hpw]; simp
  · simp

/-! ### The path -/

theorem rfcPieces_plain {es : List Str} (h : ∀ s ∈ es, s ≠ u!"." ∧ s ≠ u!"..") : rfcPieces [] es = es := by
  rcases List.eq_nil_or_concat es with rfl | ⟨l, s, rfl⟩
  · rfl
  · rw [List.concat_eq_append] at h ⊢
    rw [rfcPieces_prefix (fun x hx => h x (by simp [hx])) (by simp)]
    show rfcAdd _ s false = _
    unfold rfcAdd
    rw [if_neg (h s (by simp)).2, if_neg (h s (by simp)).1]
    rfl

theorem writtenPath_dots {k : Bool} {P : Bool → Host → Prop} {u : Rec} (hw : WF k P u) {p : List Str}
    (hp : u.path = .list p) : removeDotSegments (writtenPath u) = serializePath u.path := by
  have hpw := hw.path
  unfold PathWF at hpw
  rw [hp] at hpw
  dsimp only at hpw
  have h47 : ∀ s ∈ p, 47 ∉ s := by
    intro s hs hc
    have := ((hpw.1.segs s hs).chars _ hc).2
    rw [isPathSep_slash] at this
    cases this
  have hdot : ∀ s ∈ p, s ≠ u!"." ∧ s ≠ u!".." := by
    intro s hs
    have h1 := (hpw.1.segs s hs).single
    have h2 := (hpw.1.segs s hs).double
    constructor
    · rintro rfl; revert h1; decide
    · rintro rfl; revert h2; decide
  unfold writtenPath
  rw [hp, slashText_eq]
  split
  · have e : u!"/." ++ slashText p = slashText (u!"." :: p) := rfl
    rw [e, removeDots_text]
    · cases p with
      | nil =>
        rename_i hd
        unfold Rec.needsDot at hd
        rw [hp] at hd
        simp at hd
      | cons s ss =>
        show slashText (rfcPieces (rfcAdd [] u!"." true) (s :: ss)) = _
        have : rfcAdd [] u!"." true = [] := rfl
        rw [this, rfcPieces_plain hdot]
    · intro s hs
      rcases List.mem_cons.1 hs with rfl | hs
      · decide
      · exact h47 s hs
  · rw [List.nil_append, removeDots_text h47, rfcPieces_plain hdot]

end Urlstd
