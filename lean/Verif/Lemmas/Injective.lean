/-
What the serialization of a record says about its parts. Used for C46: the records that only setters produce have
serializations that no parsed record has.
-/
import Verif.Lemmas.History
import Verif.Lemmas.Origin

set_option linter.unusedSimpArgs false
set_option linter.unusedVariables false

namespace Urlstd

variable {env : Env}

theorem split_unique {p : Nat → Bool} {x y a b : Str} (hx : ∀ c ∈ x, p c = false) (hy : ∀ c ∈ y, p c = false)
    (ha : ∀ c, a.head? = some c → p c = true) (hb : ∀ c, b.head? = some c → p c = true) (h : x ++ a = y ++ b) :
    x = y ∧ a = b := by
  induction x generalizing y with
  | nil =>
    cases y with
    | nil => exact ⟨rfl, h⟩
    | cons d y =>
      have := ha d (by rw [List.nil_append] at h; rw [h]; rfl)
      rw [hy d (by simp)] at this
      cases this
  | cons c x ih =>
    cases y with
    | nil =>
      have := hb c (by rw [List.nil_append] at h; rw [← h]; rfl)
      rw [hx c (by simp)] at this
      cases this
    | cons d y =>
      simp only [List.cons_append, List.cons.injEq] at h
      obtain ⟨h1, h2⟩ := ih (fun c hc => hx c (by simp [hc])) (fun c hc => hy c (by simp [hc])) h.2
      exact ⟨by rw [h.1, h1], h2⟩

/-- the text behind the colon of the scheme -/
def pastScheme (u : Rec) : Str :=
  (match u.host with
    | some h => u!"//" ++ u.serializeCredentials ++ hostSerialize h ++ u.serializePort
    | none => []) ++ ((if u.needsDot then u!"/." else []) ++ restStr u)

theorem serialize_pastScheme (u : Rec) : u.serialize = u.scheme ++ 58 :: pastScheme u := by
  rw [serialize_split]
  unfold Rec.beforePath pastScheme restStr
  simp only [List.append_assoc]
  rfl

theorem SchemeOK.colon {s : Str} (h : SchemeOK s) : ∀ c ∈ s, (c == 58) = false := by
  obtain ⟨c, cs, rfl, hc, hcs⟩ := h
  intro x hx
  rcases List.mem_cons.1 hx with rfl | hx
  · simp; omega
  · have := (hcs x hx).1
    cases h : (x == 58) with
    | false => rfl
    | true =>
      rw [beq_iff_eq] at h
      subst h
      revert this
      decide

theorem serialize_parts {u v : Rec} (hu : SchemeOK u.scheme) (hv : SchemeOK v.scheme) (h : u.serialize = v.serialize) :
    u.scheme = v.scheme ∧ pastScheme u = pastScheme v := by
  rw [serialize_pastScheme, serialize_pastScheme] at h
  obtain ⟨h1, h2⟩ := split_unique (p := (· == 58)) hu.colon hv.colon (by simp) (by simp) h
  exact ⟨h1, (List.cons.inj h2).2⟩

/-- the authority -/
def authText (u : Rec) (h : Host) : Str := u.serializeCredentials ++ hostSerialize h ++ u.serializePort

/-- a record with a host -/
theorem pastScheme_host {k : Bool} {u : Rec} (hw : WF k (HostWF env) u) {h : Host} (hh : u.host = some h) :
    ∃ p, u.path = .list p ∧ pastScheme u = 47 :: 47 :: (authText u h ++ restStr u) := by
  have hp := hw.path
  unfold PathWF at hp
  split at hp
  · rename_i p hpath
    refine ⟨p, hpath, ?_⟩
    unfold pastScheme authText Rec.needsDot
    rw [hh]
    simp
  · exact absurd hp.2 (by rw [hh]; simp)

/-- a record without host -/
theorem pastScheme_null {k : Bool} {u : Rec} (hw : WF k (HostWF env) u) (hh : u.host = none) (t : Str) :
    pastScheme u ≠ 47 :: 47 :: t := by
  intro he
  have hp := hw.path
  unfold PathWF at hp
  unfold pastScheme at he
  rw [hh] at he
  dsimp only at he
  rw [List.nil_append] at he
  have htail : ∀ c, (tailStr u.query u.fragment).head? = some c → c ≠ 47 := by
    intro c hc
    have := tailStr_head _ _ c hc
    omega
  split at hp
  · rename_i p hpath
    have hsep : ∀ s ∈ p, ∀ c ∈ s, c ≠ 47 := by
      intro s hs c hc h47
      have := ((hp.1.segs s hs).chars c hc).2
      subst h47
      cases h : isSpecialScheme u.scheme <;> rw [h] at this <;> revert this <;> decide
    have hd : ∀ s s' r, p = s :: s' :: r → u.needsDot = s.isEmpty := by
      intro s s' r h
      unfold Rec.needsDot
      rw [hh, hpath, h]
      rfl
    cases hnd : u.needsDot with
    | true =>
      rw [hnd] at he
      simp at he
    | false =>
      rw [hnd] at he
      simp only [Bool.false_eq_true, if_false, List.nil_append] at he
      unfold restStr at he
      rw [hpath] at he
      cases p with
      | nil => exact hp.2.2 hh rfl
      | cons s r =>
        simp only [serializePath, List.flatMap_cons, List.cons_append, List.cons.injEq, true_and] at he
        cases s with
        | cons c s =>
          simp only [List.cons_append, List.cons.injEq] at he
          exact hsep (c :: s) (by simp) c (by simp) he.1
        | nil =>
          cases r with
          | nil =>
            simp only [List.flatMap_nil, List.nil_append] at he
            exact htail 47 (by rw [he]; rfl) rfl
          | cons s' r =>
            have := hd _ _ _ rfl
            rw [hnd] at this
            cases this
  · rename_i s hpath
    have hnd : u.needsDot = false := by
      unfold Rec.needsDot
      rw [hpath]
      simp
    rw [hnd] at he
    simp only [Bool.false_eq_true, if_false, List.nil_append] at he
    unfold restStr at he
    rw [hpath] at he
    cases s with
    | nil => exact htail 47 (by simp only [serializePath, List.nil_append] at he; rw [he]; rfl) rfl
    | cons c s =>
      simp only [serializePath, List.cons_append, List.cons.injEq] at he
      exact hp.1.head (by rw [he.1]; rfl)

def authorityStop (c : Nat) : Bool := c == 47 || c == 63 || c == 35

theorem authText_chars {k : Bool} {u : Rec} (hw : WF k (HostWF env) u) {h : Host} (hh : u.host = some h) :
    ∀ c ∈ authText u h, authorityStop c = false := by
  have hsafe : ∀ c, safeUserinfo c = true → authorityStop c = false := by
    intro c hc
    unfold authorityStop
    safe_simp at hc
    simp only [Bool.or_eq_false_iff, beq_eq_false_iff_ne]
    omega
  have hpt : ∀ c ∈ u.serializePort, authorityStop c = false := by
    unfold Rec.serializePort
    intro c hc
    split at hc
    · cases hc
    · rcases List.mem_cons.1 hc with rfl | hc
      · decide
      · have := natDec_digits _ c hc
        rw [isDigit_iff] at this
        unfold authorityStop
        simp only [Bool.or_eq_false_iff, beq_eq_false_iff_ne]
        omega
  intro c hc
  unfold authText at hc
  simp only [List.mem_append] at hc
  rcases hc with (hc | hc) | hc
  · unfold Rec.serializeCredentials at hc
    split at hc
    · simp only [List.mem_append] at hc
      rcases hc with (hc | hc) | hc
      · exact hsafe c (hw.auth.user c hc)
      · split at hc
        · cases hc
        · rcases List.mem_cons.1 hc with rfl | hc
          · decide
          · exact hsafe c (hw.auth.pass c hc)
      · simp only [List.mem_cons, List.not_mem_nil, or_false] at hc
        subst hc
        decide
    · cases hc
  · have := (hw.auth.host h hh).text.chars c hc
    unfold authorityStop
    simp only [Bool.or_eq_false_iff, beq_eq_false_iff_ne]
    omega
  · exact hpt c hc

theorem restStr_stop {u : Rec} {p : List Str} (hp : u.path = .list p) :
    ∀ c, (restStr u).head? = some c → authorityStop c = true := by
  intro c hc
  rcases restStr_head hp c hc with rfl | rfl | rfl <;> decide

/-- two records with the same serialization, one of them with a host -/
theorem same_authority {k k' : Bool} {u v : Rec} (hu : WF k (HostWF env) u) (hv : WF k' (HostWF env) v)
    (hs : u.serialize = v.serialize) {h : Host} (hh : u.host = some h) :
    u.scheme = v.scheme ∧ ∃ h', v.host = some h' ∧ authText u h = authText v h' ∧ restStr u = restStr v := by
  obtain ⟨h1, h2⟩ := serialize_parts hu.auth.scheme hv.auth.scheme hs
  obtain ⟨p, hp, hu2⟩ := pastScheme_host hu hh
  rw [hu2] at h2
  refine ⟨h1, ?_⟩
  cases hvh : v.host with
  | none => exact absurd h2.symm (pastScheme_null hv hvh _)
  | some h' =>
    obtain ⟨p', hp', hv2⟩ := pastScheme_host hv hvh
    rw [hv2] at h2
    simp only [List.cons.injEq, true_and] at h2
    exact ⟨h', rfl, split_unique (authText_chars hu hh) (authText_chars hv hvh) (restStr_stop hp) (restStr_stop hp') h2⟩

theorem hostSerialize_letter {h : Host} {c : Nat} {s : Str} (hc : 97 ≤ c) (hc' : c ≤ 122) (e : hostSerialize h = c :: s) : h = .str (c :: s) := by
  cases h with
  | str t => exact congrArg Host.str e
  | ipv4 n =>
    have : c ∈ hostSerialize (.ipv4 n) := by rw [e]; simp
    rcases ipv4Serialize_digits n c this with h | h
    · rw [isDigit_iff] at h; omega
    · omega
  | ipv6 a =>
    simp only [hostSerialize, List.cons_append, List.nil_append, List.append_assoc, List.cons.injEq] at e
    omega

/-- The serialization of a record that only setters produce is not the serialization of a parsed record. -/
theorem deviant_href {u v : Rec} (hu : WF false (HostWF env) u) (hv : WF true (HostWF env) v)
    (hs : u.serialize = v.serialize) : ¬ Spec.Deviant u := by
  intro hd
  have hfile : u.scheme = u!"file" → u.isSpecial = true := by
    intro h
    unfold Rec.isSpecial
    rw [h]
    decide
  have hhost : u.host ≠ none := by
    intro h
    rcases hd with ⟨h1, _⟩ | ⟨h1, _⟩
    · rw [hu.auth.null h] at h1; cases h1
    · exact (hu.auth.special (hfile h1)).1 h
  cases hh : u.host with
  | none => exact hhost hh
  | some h =>
    obtain ⟨hsc, h', hh', ha, hr⟩ := same_authority hu hv hs hh
    have nocred : ∀ {w : Rec} {x : Host}, w.username = [] → w.password = [] → authText w x = hostSerialize x ++ w.serializePort := by
      intro w x h1 h2
      unfold authText Rec.serializeCredentials Rec.includesCredentials
      rw [h1, h2]
      rfl
    -- port 0
    have hport : ¬ (u.port = some 0 ∧ (u.host = some (.str []) ∨ u.scheme = u!"file")) := by
      rintro ⟨h0, h2⟩
      have hb := hu.auth.loose (.inr h2)
      rw [nocred hb.1 hb.2.1] at ha
      have hpu : u.serializePort = u!":0" := by unfold Rec.serializePort; rw [h0]; rfl
      rw [hpu] at ha
      by_cases hf : u.scheme = u!"file"
      · have hb' := hv.auth.bare (.inr (.inr (hsc ▸ hf)))
        rw [nocred hb'.1 hb'.2.1, show v.serializePort = [] by unfold Rec.serializePort; rw [hb'.2.2]] at ha
        have s1 := (hu.auth.host h hh).text.span true u!":0" (by simp)
        have s2 := (hv.auth.host h' hh').text.span true [] (by simp)
        rw [ha, s2] at s1
        cases (Prod.mk.inj s1).2
      · have h3 : u.host = some (.str []) := h2.resolve_right hf
        rw [hh] at h3
        cases h3
        rw [show hostSerialize (.str []) = [] from rfl, List.nil_append] at ha
        have hc : v.serializeCredentials = [] := by
          by_cases hi : v.includesCredentials = true
          · exfalso
            have : 64 ∈ authText v h' := by
              unfold authText Rec.serializeCredentials
              rw [if_pos hi]
              simp
            rw [← ha] at this
            revert this
            decide
          · unfold Rec.serializeCredentials
            rw [if_neg hi]
        unfold authText at ha
        rw [hc, List.nil_append] at ha
        by_cases hn : hostSerialize h' = []
        · have hb' := hv.auth.bare (.inr (.inl (by rw [hh', hostSerialize_nil hn])))
          rw [hn, show v.serializePort = [] by unfold Rec.serializePort; rw [hb'.2.2]] at ha
          cases ha
        · refine (hv.auth.host h' hh').text.colon hn ?_
          cases hx : hostSerialize h' with
          | nil => exact absurd hx hn
          | cons c t =>
            rw [hx] at ha
            simp only [List.cons_append, List.cons.injEq] at ha
            rw [← ha.1]
            rfl
    rcases hd with hd | ⟨hf, hd⟩
    · exact hport hd
    · have hf' : v.scheme = u!"file" := hsc ▸ hf
      rcases hd with hl | ⟨c, rest, hc, hp⟩
      · -- localhost
        rw [hh] at hl
        cases hl
        have hb := hu.auth.loose (.inr (.inr hf))
        have hp0 : u.port = none := hb.2.2.resolve_right fun h => hport ⟨h.2, .inr hf⟩
        have hb' := hv.auth.bare (.inr (.inr hf'))
        rw [nocred hb.1 hb.2.1, nocred hb'.1 hb'.2.1, show u.serializePort = [] by unfold Rec.serializePort; rw [hp0],
          show v.serializePort = [] by unfold Rec.serializePort; rw [hb'.2.2], List.append_nil, List.append_nil] at ha
        refine hv.auth.file rfl hf' ?_
        rw [hh', hostSerialize_letter (c := 108) (by omega) (by omega) ha.symm]
      · -- a drive letter
        have hpv := hv.path
        unfold PathWF at hpv
        split at hpv
        · rename_i p hpath
          have hne := hpv.2.1 (by unfold Rec.isSpecial; rw [hf']; decide)
          unfold restStr at hr
          rw [hp, hpath] at hr
          cases p with
          | nil => exact hne rfl
          | cons s r =>
            simp only [serializePath, List.flatMap_cons, List.append_assoc, List.cons_append, List.cons.injEq, true_and] at hr
            have hstop : ∀ (l : List Str) (t : Str), (∀ c, t.head? = some c → authorityStop c = true) →
                ∀ c, ((l.flatMap fun seg => c!"/" :: seg) ++ t).head? = some c → authorityStop c = true := by
              intro l t ht c hc
              cases l with
              | nil => exact ht c hc
              | cons a l =>
                simp only [List.flatMap_cons, List.cons_append, List.head?_cons, Option.some.injEq] at hc
                subst hc
                decide
            have htail : ∀ (w : Rec) c, (tailStr w.query w.fragment).head? = some c → authorityStop c = true := by
              intro w c hc
              rcases tailStr_head _ _ c hc with rfl | rfl <;> decide
            have hseg : ∀ c ∈ s, authorityStop c = false := by
              intro c hc
              have h1 := (hpv.1.segs s (by simp)).chars c hc
              have h2 := h1.1
              have h3 := h1.2
              rw [hf'] at h3
              unfold authorityStop
              safe_simp at h2
              simp only [Bool.or_eq_false_iff, beq_eq_false_iff_ne]
              refine ⟨⟨?_, by omega⟩, by omega⟩
              rintro rfl
              revert h3
              decide
            have hdl : ∀ x ∈ [c, c!"|"], authorityStop x = false := by
              intro x hx
              simp only [List.mem_cons, List.not_mem_nil, or_false] at hx
              unfold authorityStop
              simp only [Bool.or_eq_false_iff, beq_eq_false_iff_ne]
              omega
            have := (split_unique (x := [c, c!"|"]) hdl hseg (hstop rest _ (htail u)) (hstop r _ (htail v)) hr).1
            subst this
            have hdrive := hpv.1.drive rfl hf' _ rfl (by
              simp only [isWindowsDriveLetter, isAlpha, Bool.and_eq_true, Bool.or_eq_true, decide_eq_true_eq]
              exact ⟨by omega, by simp⟩)
            revert hdrive
            simp [isNormalizedWindowsDriveLetter]
        · exact absurd hpv.2 (by rw [hh']; simp)

end Urlstd
