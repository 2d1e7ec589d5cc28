/-
The length of what the operations make of a URL.
-/
import Verif.Lemmas.Size3
import Verif.Props.Denote

set_option linter.unusedVariables false

namespace Urlstd

open Spec (IsStr IdnaFactor Fed)

variable {env : Env} {C : Nat} {Q : Option Str → Nat}

/-! ### Measures of queries -/

/-- the length of a query with its "?" -/
def qLen (q : Option Str) : Nat := q.elim 0 fun x => x.length + 1

/-- the length, or what the parameters may take if they are written again -/
def qSize (C : Nat) (q : Option Str) : Nat := max (qLen q) (C * weight (spOfQuery q))

theorem qLen_ok (hC : 12 ≤ C) : QOK C qLen where
  none := rfl
  some sp v hv := by
    have := pe_length (fun b => 0x20 ≤ b && b ≤ 0x7E && !(u!" \"#<>").contains b && !(sp && b == c!"'")) false hv hC
    simp only [qLen, Option.elim, Spec.queryEncode]
    omega

theorem qSize_ok (hC : 12 ≤ C) : QOK C (qSize C) where
  none := by
    have : weight (spOfQuery none) = 0 := by decide
    simp [qSize, this, qLen]
  some sp v hv := by
    have h1 := (qLen_ok hC).some sp v hv
    have h2 := Nat.mul_le_mul_left C (queryEncode_weight sp hv)
    rw [Nat.mul_add, Nat.mul_one] at h2
    unfold qSize
    omega

/-! ### The URL -/

/-- the length of the part from "//" to the path -/
def authLen (u : Rec) : Nat :=
  u.host.elim (if u.needsDot then 2 else 0) fun h => 2 + u.serializeCredentials.length + (hostSerialize h).length + u.serializePort.length

theorem serialize_sum (u : Rec) : u.serialize.length =
    u.scheme.length + 1 + authLen u + (serializePath u.path).length + qLen u.query + fragLen u.fragment := by
  unfold Rec.serialize authLen
  have hd : u.host ≠ none → u.needsDot = false := by unfold Rec.needsDot; cases u.host <;> simp
  rcases u with ⟨sc, un, pw, host, port, path, query, fragment⟩
  have e1 : List.length u!":" = 1 := rfl
  have e2 : List.length u!"//" = 2 := rfl
  cases host with
  | none =>
    cases query <;> cases fragment <;>
      simp only [List.length_append, List.length_cons, List.length_nil, qLen, fragLen, Option.elim, e1] <;> split <;>
      simp only [List.length_cons, List.length_nil] <;> (try split) <;> simp_all
  | some h =>
    have hd := hd (by simp)
    cases query <;> cases fragment <;>
      simp only [List.length_append, List.length_cons, List.length_nil, qLen, fragLen, Option.elim, e1, hd] <;>
      simp

theorem serialize_len (hq : ∀ q, qLen q ≤ Q q) (u : Rec) : u.serialize.length ≤ bulk Q u + 6 := by
  have h1 := hq u.query
  have hc : u.serializeCredentials.length ≤ u.username.length + u.password.length + 2 := by
    unfold Rec.serializeCredentials
    split
    · simp only [List.length_append]
      split <;> simp <;> omega
    · simp
  rw [serialize_sum]
  unfold bulk authLen
  cases hh : u.host with
  | none =>
    simp only [Option.elim]
    split <;> omega
  | some h =>
    have e3 : u.serializeHost.length = (hostSerialize h).length := by simp [Rec.serializeHost, hh]
    simp only [Option.elim]
    omega

theorem bulk_le_serialize {P : Bool → Host → Prop} {k : Bool} {u : Rec} (h : WF k P u) : bulk qLen u ≤ u.serialize.length := by
  rw [serialize_sum]
  unfold bulk authLen
  have hc : u.username.length + u.password.length ≤ u.serializeCredentials.length := by
    unfold Rec.serializeCredentials
    split
    · simp only [List.length_append]
      split
      · rename_i hp; simp at hp; simp [hp]
      · simp; omega
    · rename_i hp
      simp [Rec.includesCredentials] at hp
      simp [hp]
  cases hh : u.host with
  | none =>
    obtain ⟨h1, h2, -⟩ := h.auth.loose (.inl hh)
    have h3 : u.serializePort.length = 0 := by simp [Rec.serializePort, h.auth.null hh]
    have h4 : u.serializeHost.length = 0 := by simp [Rec.serializeHost, hh]
    rw [h1, h2, h3, h4]
    simp only [Option.elim, List.length_nil]
    omega
  | some x =>
    have e3 : u.serializeHost.length = (hostSerialize x).length := by simp [Rec.serializeHost, hh]
    simp only [Option.elim]
    omega

theorem rstrip_bulk (u : Rec) : bulk Q (potentiallyRstrip u) ≤ bulk Q u := by
  by_cases h : ∀ s, u.path = .opaque s → u.fragment = none → u.query ≠ none
  · rw [rstrip_other h]
    exact Nat.le_refl _
  · simp only [not_forall] at h
    obtain ⟨s, hp, hf, hq⟩ := h
    rw [rstrip_opaque hp hf (by simpa using hq)]
    unfold bulk
    dsimp only [Rec.serializeHost, Rec.serializePort]
    rw [hp]
    dsimp only [serializePath]
    have := dropWhile_length (fun c => isPySpace c || (0x1C ≤ c && c ≤ 0x1F)) s.reverse
    simp only [List.length_reverse] at this ⊢
    omega

/-! ### The setters -/

theorem portOut_bulk {u : Rec} (h : ∀ p, u.port = some p → p ≤ 65535) (d : Str) : bulk Q (portOut env u d).2 ≤ bulk Q u + 6 := by
  unfold portOut
  split
  · exact Nat.le_add_right _ _
  · split
    · exact Nat.le_add_right _ _
    · rename_i v hv
      split
      · exact Nat.le_add_right _ _
      · have : ({ u with port := if isDefaultPort u.scheme v.toNat then none else some v.toNat } : Rec).serializePort.length ≤ 6 := by
          apply port_len
          intro p hp
          dsimp only at hp
          split at hp
          · cases hp
          · cases hp; omega
        unfold bulk
        dsimp only [Rec.serializeHost] at *
        omega

theorem removeTab_len (t : Str) : (removeTabNewline t).length ≤ t.length := by
  unfold removeTabNewline; exact List.length_filter_le _ _

theorem removeTab_str {t : Str} (h : IsStr t) : IsStr (removeTabNewline t) := by
  unfold removeTabNewline; exact fun c hc => h c (List.mem_filter.1 hc).1

theorem dropLead_len (c : Nat) (t : Str) : (dropLead c t).length ≤ t.length := by
  unfold dropLead
  split
  · split <;> simp
  · exact Nat.le_refl _

theorem dropLead_str {c : Nat} {t : Str} (h : IsStr t) : IsStr (dropLead c t) := by
  unfold dropLead
  split
  · split
    · exact fun x hx => h x (List.mem_cons_of_mem _ hx)
    · exact h
  · exact h

theorem takeScheme_len {t sc r : Str} (h : takeScheme t = some (sc, r)) : sc.length ≤ t.length := by
  unfold takeScheme at h
  split at h
  · cases h
  · rename_i c cs
    split at h
    · cases h
    · split at h
      · cases h
      · split at h
        · cases h
          have := (List.takeWhile_sublist (l := cs) isSchemeChar).length_le
          simp [lower] at *
          omega
        · cases h

theorem overrideScheme_bulk (u : Rec) (sc : Str) : bulk Q (overrideScheme u sc) ≤ bulk Q u + sc.length := by
  unfold overrideScheme
  split
  · omega
  · dsimp only
    split
    · split
      · unfold bulk; simp only [Rec.serializeHost, Rec.serializePort, List.length_nil]; omega
      · unfold bulk; simp only [Rec.serializeHost, Rec.serializePort]; omega
    · unfold bulk; simp only [Rec.serializeHost, Rec.serializePort]; omega

theorem set_host_bulk (u : Rec) (h : Host) : bulk Q { u with host := some h } ≤ bulk Q u + (hostSerialize h).length := by
  unfold bulk
  simp only [Rec.serializeHost, Rec.serializePort]
  omega

theorem hostEndOut_bulk (hC : 12 ≤ C) (hi : IdnaFactor env C) (u : Rec) {b : Str} (hb : IsStr b) :
    bulk Q (hostEndOut env u b).2 ≤ bulk Q u + C * b.length + 3 := by
  unfold hostEndOut
  split
  · dsimp only; omega
  · split
    · dsimp only; omega
    · split
      · dsimp only; omega
      · rename_i h hh
        have h1 := hostParse_length hC hi hb hh
        have h2 := set_host_bulk (Q := Q) u h
        dsimp only
        omega

theorem hostSetOut_bulk (hC : 12 ≤ C) (hi : IdnaFactor env C) (ov : PState) {u : Rec} (hp : ∀ p, u.port = some p → p ≤ 65535)
    {t : Str} (ht : IsStr t) : bulk Q (hostSetOut env ov u t).2 ≤ bulk Q u + C * t.length + 9 := by
  unfold hostSetOut
  split
  · unfold fileHostOut
    have hs := List.takeWhile_sublist (l := t) notFileHostEnd
    have hl := Nat.mul_le_mul_left C hs.length_le
    split
    · have := set_host_bulk (Q := Q) u (.str [])
      simp only [hostSerialize, List.length_nil] at this ⊢
      omega
    · split
      · dsimp only; omega
      · rename_i h hh
        have h1 := hostParse_length hC hi (fun c hc => ht c (hs.subset hc)) hh
        have h2 := set_host_bulk (Q := Q) u (if h = .str u!"localhost" then .str [] else h)
        have h6 : (hostSerialize (if h = .str u!"localhost" then .str [] else h)).length ≤ (hostSerialize h).length := by
          split
          · simp [hostSerialize]
          · exact Nat.le_refl _
        dsimp only at h2 ⊢
        omega
  · have e := (hostSpan_facts (sp := u.isSpecial) t false).1
    generalize (hostSpan u.isSpecial false t).1 = b at e
    generalize (hostSpan u.isSpecial false t).2 = r at e
    subst e
    have hb : IsStr b := fun c hc => ht c (by simp [hc])
    have h0 := hostEndOut_bulk (Q := Q) hC hi u hb
    rw [List.length_append, Nat.mul_add]
    unfold hostOut
    split
    · omega
    · split
      · split
        · dsimp only; omega
        · split
          · dsimp only; omega
          · split
            · dsimp only; omega
            · rename_i h hh
              have h1 := hostParse_length hC hi hb hh
              have h2 := set_host_bulk (Q := Q) u h
              rename_i cs _ _ _ _
              have h3 := portOut_bulk (Q := Q) (env := env) (u := { u with host := some h }) hp (cs.takeWhile isDigit)
              omega
      · omega

theorem pathnameSegs_len (hC : 12 ≤ C) (u : Rec) {t : Str} (ht : IsStr t) : pathLen (pathnameSegs u t) ≤ C * t.length + 1 := by
  unfold pathnameSegs
  split
  · split <;> simp [pathLen]
  · rename_i c cs
    have h1 : ∀ {t : Str}, IsStr t → pathLen (addPieces u.scheme [] (pathPieces u.isSpecial t)) ≤ C * t.length + 1 := by
      intro t ht
      rw [addPieces_follow _ _ fun a ha x hx => ht x (pathPieces_mem a ha x hx), ← segmentsOf_eq]
      have := followed_length (Spec.isFile u.scheme) u.isSpecial ht hC []
      simp only [show pathLen [] = 0 from rfl, Nat.zero_add] at this
      exact this
    split
    · have := h1 (t := cs) fun x hx => ht x (List.mem_cons_of_mem _ hx)
      rw [List.length_cons, Nat.mul_add]
      omega
    · exact h1 ht

/-! ### The parameters -/

theorem weight_cons (x : Str × Str) (l : Params) : weight (x :: l) = x.1.length + x.2.length + 1 + weight l := by simp [weight]

theorem weight_filter (p : Str × Str → Bool) (l : Params) : weight (l.filter p) ≤ weight l := by
  induction l with
  | nil => exact Nat.le_refl _
  | cons x l ih =>
    rw [List.filter_cons]
    split
    · rw [weight_cons, weight_cons]; omega
    · rw [weight_cons]; omega

theorem weight_perm {l m : Params} (h : l.Perm m) : weight l = weight m := by
  induction h with
  | nil => rfl
  | cons x h ih => rw [weight_cons, weight_cons, ih]
  | swap x y l => rw [weight_cons, weight_cons, weight_cons, weight_cons]; omega
  | trans h1 h2 ih1 ih2 => rw [ih1, ih2]

theorem weight_set (l : Params) {n : Str} {v : ParamVal} (hn : IsStr n) (hv : IsStr v.toStr) :
    weight (spSet l n v) ≤ weight l + (n.length + v.toStr.length + 1) := by
  have h1 := decName_length hn
  have h2 := decName_length hv
  have e : weight [(decName n, decName v.toStr)] ≤ n.length + v.toStr.length + 1 := by
    simp only [weight, List.map_cons, List.map_nil, List.sum_cons, List.sum_nil, decName]; omega
  by_cases h : ∀ p ∈ l, p.1 ≠ decName n
  · rw [spSet_none v h, weight_append]
    omega
  · obtain ⟨pre, w, post, rfl, hpre⟩ : ∃ pre w post, l = pre ++ (decName n, w) :: post ∧ ∀ p ∈ pre, p.1 ≠ decName n := by
      clear e h1 h2
      induction l with
      | nil => exact absurd (fun p hp => by cases hp) h
      | cons p l ih =>
        by_cases hp : p.1 = decName n
        · exact ⟨[], p.2, l, by rw [← hp]; rfl, fun q hq => by cases hq⟩
        · obtain ⟨pre, w, post, rfl, hpre⟩ := ih (fun hall => h (List.forall_mem_cons.2 ⟨hp, hall⟩))
          exact ⟨p :: pre, w, post, rfl, List.forall_mem_cons.2 ⟨hp, hpre⟩⟩
    rw [spSet_some w post v hpre]
    have h3 := weight_filter (fun p => decide (p.1 ≠ decName n)) post
    have e2 : ∀ (x : Str × Str) (m : Params), weight (x :: m) = weight [x] + weight m := fun x m => by simp [weight]
    rw [weight_append, weight_append, e2, e2 (decName n, w)]
    omega

theorem spUpdate_bulk (hC : 12 ≤ C) {u : Rec} {l : Params} (hl : ScalarPairs l) (hq : l = spOfQuery (spUpdate l u).query) :
    bulk (qSize C) (spUpdate l u) + qSize C u.query ≤ bulk (qSize C) u + C * weight l := by
  by_cases h : spToStr l = []
  · rw [spUpdate_nil h]
    have h1 := rstrip_bulk (Q := qSize C) { u with query := none }
    have h2 : bulk (qSize C) { u with query := none } + qSize C u.query ≤ bulk (qSize C) u := by
      unfold bulk
      simp only [Rec.serializeHost, Rec.serializePort, (qSize_ok hC).none]
      omega
    exact Nat.le_trans (Nat.le_trans (Nat.add_le_add_right h1 _) h2) (Nat.le_add_right _ _)
  · rw [spUpdate_cons h] at hq ⊢
    have h1 := urlencode_length hl.isStr (by rintro rfl; exact h rfl) hC
    have h2 : qSize C (some (spToStr l)) ≤ C * weight l := by
      unfold qSize
      rw [← hq]
      simp only [qLen, Option.elim, spToStr]
      omega
    unfold bulk
    simp only [Rec.serializeHost, Rec.serializePort]
    omega

/-! ### Every operation -/

theorem bulk_port {u : Rec} (p : Option Nat) (h : ({ u with port := p } : Rec).serializePort.length ≤ 6) :
    bulk Q { u with port := p } ≤ bulk Q u + 6 := by
  unfold bulk
  simp only [Rec.serializeHost] at h ⊢
  omega

theorem quiet_factor (hi : IdnaFactor env C) : IdnaFactor env.quiet C := hi

/-- what a text gives without a base -/
theorem parse_bulk (hC : 12 ≤ C) (hQ : QOK C Q) (hi : IdnaFactor env C) {s : Str} (hs : IsStr s) {base : Option Rec}
    (hb : Spec.GoodBase base) {u : Rec} (h : (parseUrl env s (Props.baseArg base)).res = .ok u) :
    (base = none → bulk Q u + 6 ≤ C * s.length) ∧ bulk Q u ≤ (base.elim 0 (bulk Q)) + C * s.length + 1 := by
  have hd := (Props.C83_denotes env s base hs hb _).1 h
  have hl : (Spec.dropTabs (Spec.stripC0 s)).length ≤ s.length := by
    rw [prepared_std]; exact prepared_length_le s
  have hstr : IsStr (Spec.dropTabs (Spec.stripC0 s)) := by
    rw [prepared_std]; exact fun c hc => hs c (prepared_mem c hc)
  obtain ⟨h1, h2⟩ := denotes_len hC hQ hi hstr hd
  have h3 := Nat.mul_le_mul_left C hl
  exact ⟨fun e => by have := h1 e; omega, by omega⟩

theorem op_bulk (hC : 12 ≤ C) (hi : IdnaFactor env C) {o : URLObj} (h : Reached env o) {op : Op} (hop : op.IsStr) {n : Nat}
    (hn : bulk (qSize C) o.url + 6 ≤ C * n) : bulk (qSize C) (applyOp env o op).2.url + 6 ≤ C * (n + op.chars + 1) := by
  have ho := h.objOK (hostSpec_true _)
  have hp : ∀ p, o.url.port = some p → p ≤ 65535 := fun p hp => (ho.url.auth.port p hp).1
  have ho' := (Reached.op h hop).objOK (hostSpec_true _)
  have key : ∀ l : Params, ScalarPairs l → l = spOfQuery (spUpdate l o.url).query → weight l ≤ weight o.params + op.chars + 1 →
      bulk (qSize C) (spUpdate l o.url) + 6 ≤ C * (n + op.chars + 1) := by
    intro l hl hq hw
    have h1 := spUpdate_bulk hC hl hq
    have h2 : C * weight o.params ≤ qSize C o.url.query := by unfold qSize; rw [ho.params]; omega
    have h3 := Nat.mul_le_mul_left C hw
    rw [Nat.mul_add, Nat.mul_add, Nat.mul_one] at h3 ⊢
    omega
  have same : bulk (qSize C) o.url + 6 ≤ C * (n + op.chars + 1) := by
    rw [Nat.mul_add, Nat.mul_add]; omega
  have enc : ∀ {v : Str} (safe : Nat → Bool), IsStr v → ∀ t : Str, t.length ≤ v.length → IsStr t →
      (utf8PercentEncode t safe).length ≤ C * v.length := by
    intro v safe hv t htl ht
    have := upe_length safe ht hC
    have := Nat.mul_le_mul_left C htl
    omega
  rw [Nat.mul_add, Nat.mul_add, Nat.mul_one] at same key ⊢
  cases op with
  | hash v =>
    change bulk (qSize C) (setHash env o v).2.url + 6 ≤ C * n + C * v.length + C
    by_cases hv : v = []
    · subst hv
      have h1 := rstrip_bulk (Q := qSize C) { o.url with fragment := none }
      have h2 : bulk (qSize C) { o.url with fragment := none } ≤ bulk (qSize C) o.url := by
        unfold bulk fragLen
        simp only [Rec.serializeHost, Rec.serializePort, Option.elim]
        omega
      change bulk (qSize C) (potentiallyRstrip { o.url with fragment := none }) + 6 ≤ _
      omega
    · rw [setHash_eq env o v hv]
      have h1 := removeTab_len (dropLead c!"#" v)
      have h2 := dropLead_len c!"#" v
      have h3 := enc safeFragment hop (removeTabNewline (dropLead c!"#" v)) (by omega) (removeTab_str (dropLead_str hop))
      unfold bulk at hn ⊢
      simp only [Rec.serializeHost, Rec.serializePort, fragLen, Option.elim] at hn ⊢
      omega
  | host v =>
    change bulk (qSize C) (setHost env o v).2.url + 6 ≤ C * n + C * v.length + C
    by_cases hq : o.url.hasOpaquePath = false
    · rw [setHost_eq env o v hq]
      have h1 := hostSetOut_bulk (Q := qSize C) hC (quiet_factor hi) .host hp (removeTab_str hop)
      have h2 := Nat.mul_le_mul_left C (removeTab_len v)
      dsimp only at h1 ⊢
      omega
    · have : setHost env o v = (.ok (), o) := by unfold setHost; rw [if_pos (by simpa using hq)]
      rw [this]
      exact same
  | hostname v =>
    change bulk (qSize C) (setHostname env o v).2.url + 6 ≤ C * n + C * v.length + C
    by_cases hq : o.url.hasOpaquePath = false
    · rw [setHostname_eq env o v hq]
      have h1 := hostSetOut_bulk (Q := qSize C) hC (quiet_factor hi) .hostname hp (removeTab_str hop)
      have h2 := Nat.mul_le_mul_left C (removeTab_len v)
      dsimp only at h1 ⊢
      omega
    · have : setHostname env o v = (.ok (), o) := by unfold setHostname; rw [if_pos (by simpa using hq)]
      rw [this]
      exact same
  | href v =>
    change bulk (qSize C) (setHref env o v).2.url + 6 ≤ C * n + C * v.length + C
    unfold setHref
    split
    · rename_i r hr
      have e : (parseUrl env.quiet v (Props.baseArg none)).res = .ok r := by rw [Props.parse_baseArg_res]; exact hr
      have := (parse_bulk hC (qSize_ok hC) (quiet_factor hi) hop (base := none) (by intro b hb; cases hb) e).1 rfl
      dsimp only
      omega
    · exact same
  | password v =>
    change bulk (qSize C) (setPassword o v).2.url + 6 ≤ C * n + C * v.length + C
    unfold setPassword
    split
    · exact same
    · have := upe_length safeUserinfo hop hC
      unfold bulk at hn ⊢
      simp only [Rec.serializeHost, Rec.serializePort] at hn ⊢
      omega
  | pathname v =>
    change bulk (qSize C) (setPathname env o v).2.url + 6 ≤ C * n + C * v.length + C
    by_cases hq : o.url.hasOpaquePath = false
    · rw [setPathname_eq env o v hq]
      have h1 := pathnameSegs_len hC o.url (removeTab_str hop)
      have h2 := Nat.mul_le_mul_left C (removeTab_len v)
      unfold bulk at hn ⊢
      simp only [Rec.serializeHost, Rec.serializePort, pathLen_serialize] at hn ⊢
      omega
    · have : setPathname env o v = (.ok (), o) := by unfold setPathname; rw [if_pos (by simpa using hq)]
      rw [this]
      exact same
  | port v =>
    change bulk (qSize C) (setPort env o v).2.url + 6 ≤ C * n + C * v.length + C
    by_cases hq : o.url.cannotHaveUPP = false
    · by_cases hv : v = []
      · subst hv
        have h1 := bulk_port (Q := qSize C) (u := o.url) none (by simp [Rec.serializePort])
        have : setPort env o [] = (.ok (), { o with url := { o.url with port := none } }) := by
          unfold setPort; rw [if_neg (by simp [hq])]; rfl
        rw [this]
        dsimp only at h1 ⊢
        omega
      · rw [setPort_eq env o v hq hv]
        have h1 := portOut_bulk (Q := qSize C) (env := env.quiet) hp ((removeTabNewline v).takeWhile isDigit)
        dsimp only at h1 ⊢
        omega
    · have : setPort env o v = (.ok (), o) := by unfold setPort; rw [if_pos (by simpa using hq)]
      rw [this]
      exact same
  | protocol v =>
    change bulk (qSize C) (setProtocol env o v).2.url + 6 ≤ C * n + C * v.length + C
    rw [setProtocol_eq]
    split
    · exact same
    · rename_i sc r hsc
      have h1 := takeScheme_len hsc
      have h2 := removeTab_len (v ++ u!":")
      have h3 := overrideScheme_bulk (Q := qSize C) o.url sc
      have h4 := Nat.mul_le_mul_right v.length hC
      simp only [List.length_append, List.length_singleton] at h2
      dsimp only
      omega
  | search v =>
    change bulk (qSize C) (setSearch env o v).2.url + 6 ≤ C * n + C * v.length + C
    by_cases hv : v = []
    · subst hv
      have h1 := rstrip_bulk (Q := qSize C) { o.url with query := none }
      have h2 : bulk (qSize C) { o.url with query := none } ≤ bulk (qSize C) o.url := by
        unfold bulk
        simp only [Rec.serializeHost, Rec.serializePort, (qSize_ok hC).none]
        omega
      change bulk (qSize C) (potentiallyRstrip { o.url with query := none }) + 6 ≤ _
      omega
    · rw [setSearch_eq env o v hv]
      have h1 := removeTab_len (dropLead c!"?" v)
      have h2 := dropLead_len c!"?" v
      have h3 := removeTab_str (dropLead_str (c := c!"?") (t := v) hop)
      have e : encodeQuery .utf8 o.url (removeTabNewline (dropLead c!"?" v)) =
          Spec.queryEncode o.url.isSpecial (removeTabNewline (dropLead c!"?" v)) := by
        have := query_map_eq (url := o.url) (q := some (removeTabNewline (dropLead c!"?" v))) (fun t ht => by cases ht; exact h3)
        exact Option.some.inj this
      have h4 := (qSize_ok hC).some o.url.isSpecial _ h3
      have h5 := Nat.mul_le_mul_left C (Nat.le_trans h1 h2)
      rw [e]
      unfold bulk at hn ⊢
      simp only [Rec.serializeHost, Rec.serializePort] at hn ⊢
      omega
  | username v =>
    change bulk (qSize C) (setUsername o v).2.url + 6 ≤ C * n + C * v.length + C
    unfold setUsername
    split
    · exact same
    · have := upe_length safeUserinfo hop hC
      unfold bulk at hn ⊢
      simp only [Rec.serializeHost, Rec.serializePort] at hn ⊢
      omega
  | spAppend m v =>
    refine key _ ho'.scalar ho'.params ?_
    show weight (o.params ++ [(decName m, decName v.toStr)]) ≤ _
    have h1 := decName_length hop.1
    have h2 := decName_length hop.2
    rw [weight_append, weight_cons]
    simp only [decName, weight, List.map_nil, List.sum_nil, Op.chars]
    omega
  | spDelete m v =>
    refine key _ ho'.scalar ho'.params ?_
    show weight (spDelete o.params m v) ≤ _
    rw [spDelete_eq]
    have := weight_filter (fun p => !spMatch (decName m) v p) o.params
    omega
  | spSet m v =>
    refine key _ ho'.scalar ho'.params ?_
    have := weight_set o.params hop.1 hop.2
    show weight (spSet o.params m v) ≤ weight o.params + (m.length + v.toStr.length) + 1
    omega
  | spSort =>
    refine key _ ho'.scalar ho'.params ?_
    show weight (spSort o.params) ≤ _
    rw [weight_perm (spSort_perm o.params)]
    omega

theorem new_parse {s : Str} {b : UrlBase} {o : URLObj} (h : URLObj.new env s b = .ok o) : (parseUrl env.quiet s b.arg).res = .ok o.url := by
  unfold URLObj.new at h
  split at h
  · rename_i r hr; cases h; exact hr
  · cases h

theorem Fed.reached {o : URLObj} {n : Nat} (h : Fed env o n) : Reached env o := by
  induction h with
  | new hs h => exact .new hs h
  | newStr hs hb h => exact .newStr hs hb h
  | newUrl hs hb h ih => exact .newUrl hs ih h
  | op h hop ih => exact .op ih hop

theorem Reached.fed {o : URLObj} (h : Reached env o) : ∃ n, Fed env o n := by
  induction h with
  | new hs h => exact ⟨_, .new hs h⟩
  | newStr hs hb h => exact ⟨_, .newStr hs hb h⟩
  | newUrl hs hb h ih => exact ⟨_, .newUrl hs ih.choose_spec h⟩
  | op h hop ih => exact ⟨_, .op ih.choose_spec hop⟩

theorem fed_bulk (hC : 12 ≤ C) (hi : IdnaFactor env C) {o : URLObj} {n : Nat} (h : Fed env o n) :
    bulk (qSize C) o.url + 6 ≤ C * n := by
  induction h with
  | new hs h =>
    have h1 := (parse_bulk hC (qSize_ok hC) (quiet_factor hi) hs (base := none) (by intro b hb; cases hb) (new_parse h)).1 rfl
    rw [Nat.mul_add]
    omega
  | @newStr s b o hs hb h =>
    rcases (Props.C83_text_base env.quiet s b hs hb _).1 (new_parse h) with ⟨r, h1, h2⟩ | ⟨e, -, h2⟩
    · have h3 := (Props.C83_denotes env.quiet b none hb (by intro b hb; cases hb) _).2 h1
      have h4 := (parse_bulk hC (qSize_ok hC) (quiet_factor hi) hb (base := none) (by intro b hb; cases hb) h3).1 rfl
      have h5 : Spec.GoodBase (some r) := by
        have : URLObj.new env b = .ok ⟨r, spOfQuery r.query⟩ := by
          unfold URLObj.new
          rw [show (parseUrl env.quiet b (UrlBase.arg .none)).res = .ok r from h3]
        exact Props.reached_base (o := ⟨r, spOfQuery r.query⟩) (.new hb this)
      have h6 := (parse_bulk hC (qSize_ok hC) (quiet_factor hi) hs h5 ((Props.C83_denotes env.quiet s (some r) hs h5 _).2 h2)).2
      simp only [Option.elim] at h6
      rw [Nat.mul_add, Nat.mul_add]
      omega
    · cases h2
  | newUrl hs hb h ih =>
    have h6 := (parse_bulk hC (qSize_ok hC) (quiet_factor hi) hs (Props.reached_base (Fed.reached hb)) (new_parse h)).2
    simp only [Option.elim] at h6
    rw [Nat.mul_add, Nat.mul_add]
    omega
  | op h hop ih => exact op_bulk hC hi (Fed.reached h) hop ih

end Urlstd
