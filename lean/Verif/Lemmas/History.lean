/-
Every operation on a `URL` object keeps its invariant.
-/
import Verif.Lemmas.SetterFrame
import Verif.Spec.History

set_option linter.unusedSimpArgs false
set_option linter.unusedVariables false

namespace Urlstd

open Spec (IsStr IsScalarStr)

variable {env : Env} {P : Bool → Host → Prop}

/-! ### Parts of the invariant that depend on few fields -/

theorem AuthWF.bare0 {u : Rec} (h : AuthWF false P u)
    (hb : u.host = none ∨ u.host = some (.str []) ∨ u.scheme = u!"file") :
    u.username = [] ∧ u.password = [] ∧ (u.port = none ∨ u.port = some 0) := by
  obtain ⟨h1, h2, h3⟩ := h.loose hb
  exact ⟨h1, h2, h3.imp id And.right⟩

theorem cannot_iff (u : Rec) : u.cannotHaveUPP = true ↔
    u.host = none ∨ u.host = some (.str []) ∨ u.scheme = u!"file" := by
  unfold Rec.cannotHaveUPP Rec.hostNoneOrEmpty
  simp only [Bool.or_eq_true, beq_iff_eq]
  cases u.host with
  | none => simp
  | some h =>
    cases h with
    | str s => cases s <;> simp
    | ipv4 n => simp
    | ipv6 a => simp

/-- `potentially_rstrip_from_opaque_path` restores the condition on trailing spaces -/
theorem weak_rstrip {u : Rec} (ha : AuthWF false P u) (hp : PathWF false u) (hq : QueryWF u) (hf : FragWF u) :
    WF false P (potentiallyRstrip u) := by
  rcases rstrip_cases u with h | ⟨s, w, h1, h2, h3, h4, h5, h6⟩
  · rw [h]
    refine ⟨ha, hp, hq, hf, ?_⟩
    intro s hs hqn hfn hl
    unfold potentiallyRstrip at h
    rw [hs, hqn, hfn] at h
    have hpath := congrArg Rec.path h
    simp only at hpath
    rw [hs] at hpath
    simp only [Path.opaque.injEq] at hpath
    rw [← hpath, List.getLast?_reverse] at hl
    have := List.head?_dropWhile_not (fun c => isPySpace c || (0x1C ≤ c && c ≤ 0x1F)) s.reverse
    rw [hl] at this
    simp [isPySpace] at this
  · rw [h4]
    refine ⟨ha.congr rfl rfl rfl rfl rfl, ?_, hq, hf, ?_⟩
    · unfold PathWF at hp ⊢
      rw [h1] at hp
      refine ⟨⟨fun c hc => hp.1.chars c (by simp [hc]), ?_⟩, hp.2⟩
      have := hp.1.head
      cases s with
      | nil => simp
      | cons x xs => simpa using this
    · intro t ht _ _
      simp only [Path.opaque.injEq] at ht
      rw [← ht]; exact h6

/-! ### The serialized parameters are a query -/

theorem component_querySafe (sp : Bool) {s : Str} (hs : IsStr s) {x : Nat}
    (hx : x ∈ stringPercentEncode s safeUrlencoded .utf8 true) : querySafe sp x = true := by
  change x ∈ utf8PercentEncode s safeUrlencoded true at hx
  rw [utf8PercentEncode_eq, List.mem_flatMap] at hx
  obtain ⟨b, hb, hx⟩ := hx
  have hb := utf8Encode_bytes s hs b hb
  unfold quotePlus at hx
  split at hx
  · simp at hx; subst hx; cases sp <;> decide
  · rcases mem_quoter hb hx with h | h | h
    · obtain ⟨rfl, h⟩ := h
      simp only [quoteSafe, Bool.or_eq_true, Bool.and_eq_true] at h
      rcases h with h | h
      · exact (safeSet_querySafe sp).always _ h
      · have h128 : x < 128 := by simpa using h.1
        have h2 := h.2
        have key : ∀ x < 128, safeUrlencoded x = true → querySafe sp x = true := by cases sp <;> decide
        exact key x h128 h2
    · subst h; exact (safeSet_querySafe sp).percent
    · exact (safeSet_querySafe sp).always _ h.1

theorem urlencode_querySafe (sp : Bool) {q : List (Str × Str)} (hq : ∀ p ∈ q, IsStr p.1 ∧ IsStr p.2) :
    ∀ x ∈ urlencode q, querySafe sp x = true := by
  have hj : ∀ (ps : List Str), (∀ p ∈ ps, ∀ x ∈ p, querySafe sp x = true) →
      ∀ x ∈ joinWith u!"&" ps, querySafe sp x = true := by
    intro ps
    induction ps with
    | nil => simp [joinWith]
    | cons p ps ih =>
      intro h
      cases ps with
      | nil => simpa [joinWith] using h
      | cons q qs =>
        intro x hx
        simp only [joinWith, List.mem_append, List.mem_singleton] at hx
        rcases hx with (hx | hx) | hx
        · exact h p (by simp) x hx
        · subst hx; cases sp <;> decide
        · exact ih (fun r hr => h r (by simp [hr])) x hx
  unfold urlencode
  refine hj _ ?_
  intro p hp x hx
  rw [List.mem_map] at hp
  obtain ⟨nv, hnv, rfl⟩ := hp
  have := hq nv hnv
  simp only [List.mem_append, List.mem_cons, List.not_mem_nil, or_false] at hx
  rcases hx with (hx | hx) | hx
  · exact component_querySafe sp this.1 hx
  · subst hx; cases sp <;> decide
  · exact component_querySafe sp this.2 hx

theorem urlencode_nil_iff (q : List (Str × Str)) : urlencode q = [] ↔ q = [] := by
  constructor
  · intro h
    cases q with
    | nil => rfl
    | cons p ps =>
      exfalso
      have : (61 : Nat) ∈ urlencode (p :: ps) := by
        unfold urlencode
        cases ps with
        | nil => simp [joinWith]
        | cons a b => simp [joinWith]
      rw [h] at this; simp at this
  · rintro rfl; rfl

/-! ### Lists of pairs of scalar strings -/

/-- the strings of a parameter list are scalar value strings -/
def ScalarPairs (l : Params) : Prop := ∀ p ∈ l, IsScalarStr p.1 ∧ IsScalarStr p.2

theorem ScalarPairs.isStr {l : Params} (h : ScalarPairs l) : ∀ p ∈ l, IsStr p.1 ∧ IsStr p.2 :=
  fun p hp => ⟨(h p hp).1.isStr, (h p hp).2.isStr⟩

theorem scalar_parseQsl (b : Bytes) : ScalarPairs (parseQsl b) := by
  intro p hp
  unfold parseQsl at hp
  rw [List.mem_map] at hp
  obtain ⟨x, _, rfl⟩ := hp
  exact ⟨utf8Decode_isScalar _, utf8Decode_isScalar _⟩

theorem decName_scalar (s : Str) : IsScalarStr (decName s) := utf8Decode_isScalar _

theorem spDeleteLoop_sublist (n : Str) (v : Option ParamVal) (snap : Params) (k : Nat) (l : Params) :
    (spDeleteLoop n v snap k l).Sublist l := by
  induction k generalizing l with
  | zero => exact List.Sublist.refl _
  | succ k ih =>
    unfold spDeleteLoop
    split
    · refine (ih _).trans ?_
      split
      · exact List.eraseIdx_sublist _ _
      · exact List.Sublist.refl _
    · exact ih _

theorem spSetLoop_sublist (n : Str) (found : Nat) (k : Nat) (l : Params) :
    (spSetLoop n found k l).Sublist l := by
  induction k generalizing l with
  | zero => exact List.Sublist.refl _
  | succ k ih =>
    unfold spSetLoop
    split
    · refine (ih _).trans ?_
      split
      · exact List.eraseIdx_sublist _ _
      · exact List.Sublist.refl _
    · exact ih _

theorem mem_insertByName {x p : Str × Str} {l : Params} (h : p ∈ insertByName x l) : p = x ∨ p ∈ l := by
  induction l with
  | nil => simpa [insertByName] using h
  | cons y ys ih =>
    unfold insertByName at h
    split at h
    · rcases List.mem_cons.1 h with h | h
      · simp [h]
      · rcases ih h with h | h <;> simp [h]
    · simpa using h

theorem mem_spSort {p : Str × Str} {l : Params} (h : p ∈ spSort l) : p ∈ l := by
  induction l with
  | nil => exact h
  | cons y ys ih =>
    rcases mem_insertByName h with h | h
    · simp [h]
    · exact List.mem_cons_of_mem _ (ih h)

theorem scalar_append {l : Params} (h : ScalarPairs l) (n : Str) (v : ParamVal) : ScalarPairs (spAppend l n v) := by
  intro p hp
  rcases List.mem_append.1 hp with hp | hp
  · exact h p hp
  · simp only [List.mem_cons, List.not_mem_nil, or_false] at hp
    subst hp; exact ⟨decName_scalar _, decName_scalar _⟩

theorem scalar_delete {l : Params} (h : ScalarPairs l) (n : Str) (v : Option ParamVal) :
    ScalarPairs (spDelete l n v) :=
  fun p hp => h p ((spDeleteLoop_sublist _ _ _ _ _).subset hp)

theorem scalar_set {l : Params} (h : ScalarPairs l) (n : Str) (v : ParamVal) : ScalarPairs (spSet l n v) := by
  unfold spSet
  dsimp only
  split
  · exact scalar_append h n v
  · intro p hp
    have := (spSetLoop_sublist _ _ _ _).subset hp
    rcases List.mem_or_eq_of_mem_set this with hp | hp
    · exact h p hp
    · subst hp; exact ⟨decName_scalar _, decName_scalar _⟩

theorem scalar_sort {l : Params} (h : ScalarPairs l) : ScalarPairs (spSort l) := fun p hp => h p (mem_spSort hp)

/-! ### The invariant of a `URL` object -/

/-- the record is one that setters keep, and the parameters are those of the query -/
structure ObjOK (P : Bool → Host → Prop) (o : URLObj) : Prop where
  url : WF false P o.url
  params : o.params = spOfQuery o.url.query

theorem ObjOK.scalar {o : URLObj} (h : ObjOK P o) : ScalarPairs o.params := by
  rw [h.params]; exact scalar_parseQsl _

theorem rstrip_query (u : Rec) : (potentiallyRstrip u).query = u.query := by
  rcases rstrip_cases u with h | ⟨s, w, _, _, _, h, _⟩ <;> rw [h]

theorem objOK_mutate {o : URLObj} (h : ObjOK P o) {l : Params} (hl : ScalarPairs l) :
    ObjOK P (spMutate o l).2 := by
  show ObjOK P ⟨spUpdate l o.url, l⟩
  unfold spUpdate spToStr
  dsimp only
  by_cases hq : urlencode l = []
  · rw [if_pos (by simp [hq])]
    have hl0 := (urlencode_nil_iff l).1 hq
    constructor
    · exact weak_rstrip (h.url.auth.congr rfl rfl rfl rfl rfl) h.url.path (by intro q hq; cases hq) h.url.frag
    · show l = spOfQuery (potentiallyRstrip _).query
      rw [rstrip_query, hl0]; rfl
  · rw [if_neg (by simpa using hq)]
    constructor
    · refine ⟨h.url.auth.congr rfl rfl rfl rfl rfl, h.url.path, ?_, h.url.frag, ?_⟩
      · intro q hq' c hc
        cases hq'
        exact urlencode_querySafe _ hl.isStr c hc
      · intro s _ hqn; cases hqn
    · show l = parseQsl (utf8Encode (urlencode l))
      rw [utf8Encode_ascii (urlencode_ascii l hl.isStr), parseQsl_urlencode l hl.isStr]
      conv => lhs; rw [← List.map_id l]
      apply List.map_congr_left
      intro p hp
      rw [combine_of_scalar _ (hl p hp).1, combine_of_scalar _ (hl p hp).2]; rfl

/-! ### Authority setters -/

theorem weak_user {u : Rec} (h : WF false P u) (hc : u.cannotHaveUPP = false) {v : Str} (hv : IsStr v) :
    WF false P { u with username := utf8PercentEncode v safeUserinfo } := by
  obtain ⟨a1, a2, a3, a4, a5, a6, a7, a8, a9⟩ := h.auth
  have a8 := h.auth.bare0
  refine ⟨⟨a1, encoded_safe safeSet_userinfo hv, a3, a4, a5, a6, a7, fun hb => ?_, by simp⟩, h.path, h.query, h.frag, h.tail⟩
  have := (cannot_iff u).2 hb
  rw [hc] at this; cases this

theorem weak_pass {u : Rec} (h : WF false P u) (hc : u.cannotHaveUPP = false) {v : Str} (hv : IsStr v) :
    WF false P { u with password := utf8PercentEncode v safeUserinfo } := by
  obtain ⟨a1, a2, a3, a4, a5, a6, a7, a8, a9⟩ := h.auth
  have a8 := h.auth.bare0
  refine ⟨⟨a1, a2, encoded_safe safeSet_userinfo hv, a4, a5, a6, a7, fun hb => ?_, by simp⟩, h.path, h.query, h.frag, h.tail⟩
  have := (cannot_iff u).2 hb
  rw [hc] at this; cases this

theorem weak_port {u : Rec} (h : WF false P u) (hc : u.cannotHaveUPP = false) {p : Option Nat}
    (hp : ∀ n, p = some n → n ≤ 65535 ∧ isDefaultPort u.scheme n = false) :
    WF false P { u with port := p } := by
  obtain ⟨a1, a2, a3, a4, a5, a6, a7, a8, a9⟩ := h.auth
  have a8 := h.auth.bare0
  have hb : ¬ (u.host = none ∨ u.host = some (.str []) ∨ u.scheme = u!"file") := fun hb => by
    have := (cannot_iff u).2 hb
    rw [hc] at this; cases this
  exact ⟨⟨a1, a2, a3, hp, a5, a6, fun hn => absurd (.inl hn) hb, fun h => absurd h hb, by simp⟩, h.path, h.query, h.frag, h.tail⟩

theorem weak_portOut {u : Rec} (h : WF false P u) (hc : u.cannotHaveUPP = false) (d : Str) :
    WF false P (portOut env u d).2 := by
  unfold portOut
  split
  · exact h
  · split
    · exact h
    · split
      · exact h
      · refine weak_port h hc ?_
        intro n hn
        split at hn
        · cases hn
        · rename_i hle hd
          cases hn
          exact ⟨by omega, by simpa using hd⟩

/-- replacing the host of a URL with a list path -/
theorem weak_host {u : Rec} (h : WF false P u) (ho : u.hasOpaquePath = false) {x : Host}
    (hx : P (!u.isSpecial) x) (he : x = .str [] →
      (u.isSpecial = true → u.scheme = u!"file") ∧ u.username = [] ∧ u.password = [] ∧ (u.port = none ∨ u.port = some 0)) :
    WF false P { u with host := some x } := by
  obtain ⟨a1, a2, a3, a4, a5, a6, a7, a8, a9⟩ := h.auth
  have a8 := h.auth.bare0
  refine ⟨⟨a1, a2, a3, a4, ?_, ?_, by simp, ?_, by simp⟩, ?_, h.query, h.frag, ?_⟩
  · intro y hy; cases hy; exact hx
  · intro hs
    refine ⟨by simp, fun hh => (he ?_).1 hs⟩
    simpa using hh
  · rintro (hh | hh | hh)
    · simp at hh
    · have := (he (by simpa using hh)).2
      exact ⟨this.1, this.2.1, this.2.2.imp id (⟨rfl, ·⟩)⟩
    · have := a8 (.inr (.inr hh))
      exact ⟨this.1, this.2.1, this.2.2.imp id (⟨rfl, ·⟩)⟩
  · have hp := h.path
    unfold PathWF at hp ⊢
    unfold Rec.hasOpaquePath at ho
    cases hpa : u.path with
    | list p =>
      rw [hpa] at hp
      exact ⟨hp.1, hp.2.1, by simp⟩
    | «opaque» s => rw [hpa] at ho; simp at ho
  · intro s hs
    unfold Rec.hasOpaquePath at ho
    rw [show u.path = .opaque s from hs] at ho
    simp at ho

theorem bare_of_not {u : Rec} (h : ¬ (u.includesCredentials || u.portTruthy) = true) :
    u.username = [] ∧ u.password = [] ∧ (u.port = none ∨ u.port = some 0) := by
  unfold Rec.includesCredentials Rec.portTruthy at h
  simp only [Bool.or_eq_true, not_or, Bool.not_eq_true, Bool.not_eq_false', List.isEmpty_iff] at h
  refine ⟨?_, ?_, ?_⟩
  · simpa using h.1.1
  · simpa using h.1.2
  · cases hp : u.port with
    | none => simp
    | some p => rw [hp] at h; right; simpa using h.2

theorem weak_hostEndOut (hP : HostSpec env P) {u : Rec} (h : WF false P u) (ho : u.hasOpaquePath = false) {b : Str}
    (hb : IsStr b) : WF false P (hostEndOut env u b).2 := by
  unfold hostEndOut
  split
  · exact h
  · rename_i h1
    split
    · exact h
    · rename_i h2
      split
      · exact h
      · rename_i x hx
        refine weak_host h ho (hP b _ _ hb hx) ?_
        intro hx0
        have hb0 : b = [] := by
          cases b with
          | nil => rfl
          | cons y ys => exact absurd hx0 (hostParse_ne hb (by simp) hx)
        subst hb0
        refine ⟨fun hs => ?_, bare_of_not (by simpa using h2)⟩
        rw [hs] at h1; simp at h1

theorem weak_hostSetOut (hP : HostSpec env P) {u : Rec} (h : WF false P u) (ho : u.hasOpaquePath = false) (ov : PState)
    {t : Str} (ht : IsStr t) : WF false P (hostSetOut env ov u t).2 := by
  unfold hostSetOut
  split
  · rename_i hf
    have hbare := h.auth.bare0 (.inr (.inr hf))
    have hb : IsStr (t.takeWhile notFileHostEnd) := isStr_subset ht fun c hc => (List.takeWhile_prefix _).subset hc
    unfold fileHostOut
    split
    · exact weak_host h ho (hostSpec_empty hP _) fun _ => ⟨fun _ => hf, hbare⟩
    · split
      · exact h
      · rename_i x hx
        refine weak_host h ho ?_ fun _ => ⟨fun _ => hf, hbare⟩
        split
        · exact hostSpec_empty hP _
        · exact hP _ _ _ hb hx
  · rename_i hf
    have hb : IsStr (hostSpan u.isSpecial false t).1 := isStr_subset ht fun c hc => (hostSpan_prefix _ _ _).subset hc
    generalize (hostSpan u.isSpecial false t).1 = b at *
    generalize (hostSpan u.isSpecial false t).2 = r at *
    unfold hostOut
    split
    · exact weak_hostEndOut hP h ho hb
    · split
      · split
        · exact h
        · rename_i hne
          split
          · exact h
          · split
            · exact h
            · rename_i x hx
              have hx0 : x ≠ .str [] := hostParse_ne hb (by simpa using hne) hx
              refine weak_portOut (weak_host h ho (hP b _ _ hb hx) fun h0 => absurd h0 hx0) ?_ _
              cases hc : ({ u with host := some x } : Rec).cannotHaveUPP with
              | false => rfl
              | true =>
                rcases (cannot_iff _).1 hc with h1 | h1 | h1
                · simp at h1
                · exact absurd (by simpa using h1) hx0
                · exact absurd h1 hf
      · exact weak_hostEndOut hP h ho hb

theorem default_zero (s : Str) : isDefaultPort s 0 = false := by
  unfold isDefaultPort specialPort
  iterate 6
    split
    · decide
  decide

theorem weak_scheme {u : Rec} (h : WF false P u) {sc : Str} (hsc : SchemeOK sc) (hsp : isSpecialScheme sc = u.isSpecial)
    (hfile : sc = u!"file" → u.username = [] ∧ u.password = [] ∧ (u.port = none ∨ u.port = some 0))
    (hold : u.scheme = u!"file" → u.host ≠ none ∧ u.host ≠ some (.str []))
    {p : Option Nat} (hp : p = none ∨ p = u.port) (hd : ∀ n, p = some n → isDefaultPort sc n = false) :
    WF false P { u with scheme := sc, port := p } := by
  obtain ⟨a1, a2, a3, a4, a5, a6, a7, a8, a9⟩ := h.auth
  have a8 := h.auth.bare0
  have hs : ({ u with scheme := sc, port := p } : Rec).isSpecial = u.isSpecial := hsp
  have hport : u.port = none ∨ u.port = some 0 → p = none ∨ p = some 0 := by
    intro h
    rcases hp with hp | hp
    · exact .inl hp
    · rw [hp]; exact h
  refine ⟨⟨hsc, a2, a3, ?_, ?_, ?_, ?_, ?_, by simp⟩, ?_, ?_, h.frag, h.tail⟩
  · intro n hn
    refine ⟨?_, hd n hn⟩
    rcases hp with hp | hp
    · rw [hp] at hn; cases hn
    · exact (a4 n (by rw [← hp]; exact hn)).1
  · rw [hs]; exact a5
  · rw [hs]
    intro hsp'
    refine ⟨(a6 hsp').1, fun hh => ?_⟩
    exact absurd hh (hold ((a6 hsp').2 hh)).2
  · intro hn
    rcases hp with hp | hp
    · exact hp
    · exact hp.trans (a7 hn)
  · rintro (hh | hh | hh)
    · have := a8 (.inl hh); exact ⟨this.1, this.2.1, (hport this.2.2).imp id (⟨rfl, ·⟩)⟩
    · have := a8 (.inr (.inl hh)); exact ⟨this.1, this.2.1, (hport this.2.2).imp id (⟨rfl, ·⟩)⟩
    · have := hfile hh; exact ⟨this.1, this.2.1, (hport this.2.2).imp id (⟨rfl, ·⟩)⟩
  · have hpw := h.path
    unfold PathWF at hpw ⊢
    rw [special_eq] at hpw hsp
    rw [special_eq]
    dsimp only
    rw [hsp]
    split at hpw
    · exact ⟨⟨by rw [hsp]; exact hpw.1.segs, by simp⟩, hpw.2⟩
    · exact hpw
  · have hq := h.query
    unfold QueryWF at hq ⊢
    rw [hs]; exact hq

theorem weak_overrideScheme {u : Rec} (h : WF false P u) {sc : Str} (hsc : SchemeOK sc) : WF false P (overrideScheme u sc) := by
  unfold overrideScheme
  split
  · exact h
  · rename_i hr
    unfold schemeRefused at hr
    simp only [Bool.or_eq_true, not_or, Bool.not_eq_true] at hr
    obtain ⟨⟨⟨h1, h2⟩, h3⟩, h4⟩ := hr
    have hsp : isSpecialScheme sc = u.isSpecial := by
      cases h5 : isSpecialScheme sc <;> cases h6 : u.isSpecial <;> simp_all
    have hfile : sc = u!"file" → u.username = [] ∧ u.password = [] ∧ (u.port = none ∨ u.port = some 0) := by
      intro hf
      apply bare_of_not
      simpa [hf] using h3
    have hold : u.scheme = u!"file" → u.host ≠ none ∧ u.host ≠ some (.str []) := by
      intro hf
      have h5 : u.hostNoneOrEmpty = false := by simpa [hf] using h4
      unfold Rec.hostNoneOrEmpty at h5
      constructor
      · intro hh; rw [hh] at h5; simp at h5
      · intro hh; rw [hh] at h5; simp at h5
    have key := fun p => @weak_scheme P u h sc hsc hsp hfile hold p
    dsimp only
    cases hp : u.port with
    | none => simpa [hp] using key none (.inl rfl) (by simp)
    | some p =>
      dsimp only
      split
      · exact key none (.inl rfl) (by simp)
      · rename_i hd
        have := key (some p) (.inr hp.symm) ?_
        · simpa [hp] using this
        · intro n hn
          cases hn
          by_cases hz : p = 0
          · subst hz; exact default_zero _
          · simpa [hz] using hd

theorem weak_pathname {u : Rec} (h : WF false P u) (ho : u.hasOpaquePath = false) {t : Str} (ht : IsStr t) :
    WF false P { u with path := .list (pathnameSegs u t) } := by
  have hkey : ∀ {t : Str}, IsStr t → ∀ p, p = addPieces u.scheme [] (pathPieces u.isSpecial t) →
      (∀ s ∈ p, SegOK (isSpecialScheme u.scheme) s) ∧ p ≠ [] := by
    rintro t ht _ rfl
    have := (SegsOK_nil (k := false) u.scheme).pathState ht
    exact ⟨this.1.segs, this.2⟩
  refine ⟨h.auth.congr rfl rfl rfl rfl rfl, ?_, h.query, h.frag, by intro s hs; cases hs⟩
  suffices (∀ s ∈ pathnameSegs u t, SegOK (isSpecialScheme u.scheme) s) ∧ (u.isSpecial = true → pathnameSegs u t ≠ []) ∧
    (u.host = none → pathnameSegs u t ≠ []) from ⟨⟨this.1, by simp⟩, this.2⟩
  unfold pathnameSegs
  split
  · split
    · refine ⟨?_, by simp, by simp⟩
      intro s hs; simp at hs; subst hs; exact SegOK_nil _
    · rename_i hn
      simp only [Bool.or_eq_true, not_or, Bool.not_eq_true] at hn
      refine ⟨by simp, ?_, ?_⟩
      · intro hs; rw [hn.1] at hs; cases hs
      · intro hs; rw [hs] at hn; simp at hn
  · rename_i c cs
    have hstr : IsStr (if isPathSep u.isSpecial c then cs else c :: cs) := by
      split
      · exact fun x hx => ht x (by simp [hx])
      · exact ht
    have := hkey hstr _ rfl
    exact ⟨this.1, fun _ => this.2, fun _ => this.2⟩

/-! ### Every operation -/

theorem removeTabNewline_isStr {v : Str} (h : IsStr v) : IsStr (removeTabNewline v) :=
  isStr_subset h fun c hc => (List.mem_filter.1 hc).1

theorem dropLead_isStr {c : Nat} {v : Str} (h : IsStr v) : IsStr (dropLead c v) := by
  unfold dropLead
  split
  · split
    · exact fun x hx => h x (by simp [hx])
    · exact h
  · exact h

theorem isStr_append {a b : Str} (ha : IsStr a) (hb : IsStr b) : IsStr (a ++ b) := by
  intro c hc
  rcases List.mem_append.1 hc with h | h
  · exact ha c h
  · exact hb c h

theorem objOK_op (hP : HostSpec env.quiet P) {o : URLObj} (h : ObjOK P o) {op : Op} (hop : op.IsStr) :
    ObjOK P (applyOp env o op).2 := by
  have hw := h.url
  cases op with
  | hash v =>
    show ObjOK P (setHash env o v).2
    by_cases hv : v = []
    · unfold setHash
      rw [if_pos (by simp [hv])]
      refine ⟨weak_rstrip (hw.auth.congr rfl rfl rfl rfl rfl) hw.path hw.query (by intro f hf; cases hf), ?_⟩
      show o.params = spOfQuery (potentiallyRstrip _).query
      rw [rstrip_query]; exact h.params
    · rw [setHash_eq _ _ _ hv]
      refine ⟨⟨hw.auth.congr rfl rfl rfl rfl rfl, hw.path, hw.query, ?_, by intro s _ _ hf; cases hf⟩, h.params⟩
      intro f hf
      cases hf
      exact encoded_safe safeSet_fragment (removeTabNewline_isStr (dropLead_isStr hop))
  | host v =>
    show ObjOK P (setHost env o v).2
    cases ho : o.url.hasOpaquePath with
    | true => unfold setHost; rw [if_pos ho]; exact h
    | false =>
      rw [setHost_eq _ _ _ ho]
      refine ⟨weak_hostSetOut hP hw ho _ (removeTabNewline_isStr hop), ?_⟩
      exact h.params.trans (congrArg spOfQuery ((hostSetOut_agree env.quiet .host o.url _).1 .query (by simp)))
  | hostname v =>
    show ObjOK P (setHostname env o v).2
    cases ho : o.url.hasOpaquePath with
    | true => unfold setHostname; rw [if_pos ho]; exact h
    | false =>
      rw [setHostname_eq _ _ _ ho]
      refine ⟨weak_hostSetOut hP hw ho _ (removeTabNewline_isStr hop), ?_⟩
      exact h.params.trans (congrArg spOfQuery ((hostSetOut_agree env.quiet .hostname o.url _).1 .query (by simp)))
  | href v =>
    show ObjOK P (setHref env o v).2
    unfold setHref
    cases hp : (basicParse env.quiet v).toExcept with
    | error e => exact h
    | ok r => exact ⟨(basicParse_ok hP (e := .utf8) trivial (by simp) hop hp).weak, rfl⟩
  | password v =>
    show ObjOK P (setPassword o v).2
    unfold setPassword
    cases hc : o.url.cannotHaveUPP with
    | true => exact h
    | false => exact ⟨weak_pass hw hc hop, h.params⟩
  | username v =>
    show ObjOK P (setUsername o v).2
    unfold setUsername
    cases hc : o.url.cannotHaveUPP with
    | true => exact h
    | false => exact ⟨weak_user hw hc hop, h.params⟩
  | pathname v =>
    show ObjOK P (setPathname env o v).2
    cases ho : o.url.hasOpaquePath with
    | true => unfold setPathname; rw [if_pos ho]; exact h
    | false =>
      rw [setPathname_eq _ _ _ ho]
      exact ⟨weak_pathname hw ho (removeTabNewline_isStr hop), h.params⟩
  | port v =>
    show ObjOK P (setPort env o v).2
    cases hc : o.url.cannotHaveUPP with
    | true => unfold setPort; rw [if_pos hc]; exact h
    | false =>
      by_cases hv : v = []
      · unfold setPort
        rw [if_neg (by simp [hc]), if_pos (by simp [hv])]
        exact ⟨weak_port hw hc (by simp), h.params⟩
      · rw [setPort_eq _ _ _ hc hv]
        refine ⟨weak_portOut hw hc _, ?_⟩
        exact h.params.trans (congrArg spOfQuery (portOut_agree env.quiet o.url _ .query (by simp)))
  | protocol v =>
    show ObjOK P (setProtocol env o v).2
    rw [setProtocol_eq]
    cases ht : takeScheme (removeTabNewline (v ++ u!":")) with
    | none => exact h
    | some x =>
      obtain ⟨sc, t⟩ := x
      obtain ⟨c, cs, _, hc, hcs, rfl⟩ := takeScheme_some ht
      refine ⟨weak_overrideScheme hw (SchemeOK_lower hc hcs), ?_⟩
      refine h.params.trans (congrArg spOfQuery ?_)
      show _ = (overrideScheme _ _).query
      unfold overrideScheme
      split
      · rfl
      · dsimp only
        split
        · split <;> rfl
        · rfl
  | search v =>
    show ObjOK P (setSearch env o v).2
    by_cases hv : v = []
    · unfold setSearch
      rw [if_pos (by simp [hv])]
      exact ⟨weak_rstrip (hw.auth.congr rfl rfl rfl rfl rfl) hw.path (by intro q hq; cases hq) hw.frag, rfl⟩
    · rw [setSearch_eq _ _ _ hv]
      refine ⟨⟨hw.auth.congr rfl rfl rfl rfl rfl, hw.path, ?_, hw.frag, by intro s _ hf; cases hf⟩, rfl⟩
      intro q hq
      cases hq
      exact encodeQuery_safe (e := .utf8) trivial o.url (removeTabNewline_isStr (dropLead_isStr hop))
  | spAppend n v => exact objOK_mutate h (scalar_append h.scalar _ _)
  | spDelete n v => exact objOK_mutate h (scalar_delete h.scalar _ _)
  | spSet n v => exact objOK_mutate h (scalar_set h.scalar _ _)
  | spSort => exact objOK_mutate h (scalar_sort h.scalar)

theorem objOK_ops (hP : HostSpec env.quiet P) {o : URLObj} (h : ObjOK P o) {ops : List Op}
    (hops : ∀ op ∈ ops, op.IsStr) : ObjOK P (applyOps env o ops) := by
  induction ops generalizing o with
  | nil => exact h
  | cons op ops ih =>
    exact ih (objOK_op hP h (hops op (by simp))) fun x hx => hops x (by simp [hx])

/-! ### Reachable objects -/

theorem new_objOK (hP : HostSpec env.quiet P) {s : Str} (hs : IsStr s) {base : UrlBase}
    (hb : match base with
      | .none => True
      | .str b => IsStr b
      | .url b => ObjOK P b)
    {o : URLObj} (h : URLObj.new env s base = .ok o) : ObjOK P o := by
  unfold URLObj.new at h
  cases hp : (parseUrl env.quiet s base.arg).res with
  | error e => rw [hp] at h; cases h
  | ok r =>
    rw [hp] at h
    cases h
    refine ⟨?_, rfl⟩
    cases base with
    | none => exact basicParse_ok hP (e := .utf8) trivial (by simp) hs hp
    | str b =>
      change (parseUrl env.quiet s (.str b) .utf8).res = .ok r at hp
      rw [parseUrl_str] at hp
      cases hb' : (basicParse env.quiet b none .utf8).toExcept with
      | error err => rw [hb'] at hp; simp at hp
      | ok r' =>
        rw [hb'] at hp
        refine basicParse_ok hP (e := .utf8) trivial ?_ hs hp
        rintro _ ⟨⟩
        exact basicParse_ok hP (e := .utf8) trivial (by simp) hb hb'
    | url b =>
      refine basicParse_ok (base := some b.url) hP (e := .utf8) trivial ?_ hs hp
      rintro _ ⟨⟩
      exact hb.url

/-- every reachable object satisfies the invariant -/
theorem Reached.objOK (hP : HostSpec env.quiet P) {o : URLObj} (h : Reached env o) : ObjOK P o := by
  induction h with
  | new hs h => exact new_objOK (base := .none) hP hs trivial h
  | newStr hs hb h => exact new_objOK (base := .str _) hP hs hb h
  | newUrl hs hb h ih => exact new_objOK (base := .url _) hP hs ih h
  | op h hop ih => exact objOK_op hP ih hop

theorem drive_cases {s : Str} (h : isWindowsDriveLetter s = true) (hn : isNormalizedWindowsDriveLetter s ≠ true) :
    ∃ c, ((65 ≤ c ∧ c ≤ 90) ∨ (97 ≤ c ∧ c ≤ 122)) ∧ s = [c, 124] := by
  unfold isWindowsDriveLetter at h
  split at h
  · next a x =>
    simp only [Bool.and_eq_true] at h
    unfold isNormalizedWindowsDriveLetter at hn
    obtain ⟨h1, h2⟩ := h
    refine ⟨a, ?_, ?_⟩
    · simp only [isAlpha, Bool.or_eq_true, Bool.and_eq_true, decide_eq_true_eq] at h1; omega
    · simp_all [isWindowsDriveLetter]
  · cases h

/-- the conditions that the setters can break -/
theorem WF.strict {u : Rec} (h : WF false P u) (hd : ¬ Spec.Deviant u) : WF true P u := by
  unfold Spec.Deviant at hd
  simp only [not_or, not_and] at hd
  obtain ⟨hd1, hd2⟩ := hd
  obtain ⟨a1, a2, a3, a4, a5, a6, a7, a8, a9⟩ := h.auth
  have a8 := h.auth.bare0
  refine ⟨⟨a1, a2, a3, a4, a5, a6, a7, ?_, ?_⟩, ?_, h.query, h.frag, h.tail⟩
  · intro hb
    have := a8 hb
    refine ⟨this.1, this.2.1, .inl ?_⟩
    rcases this.2.2 with hp | hp
    · exact hp
    · rcases hb with hb | hb | hb
      · exact a7 hb
      · exact absurd hb (hd1 hp).1
      · exact absurd hb (hd1 hp).2
  · intro _ hf
    exact (hd2 hf).1
  · have hp := h.path
    unfold PathWF at hp ⊢
    split
    · next p heq =>
      rw [heq] at hp
      refine ⟨⟨hp.1.segs, ?_⟩, hp.2⟩
      intro _ hf s hs hw
      by_cases hn : isNormalizedWindowsDriveLetter s = true
      · exact hn
      · obtain ⟨c, hc, rfl⟩ := drive_cases hw hn
        cases p with
        | nil => simp at hs
        | cons x xs =>
          simp at hs
          subst hs
          exact absurd ⟨c, xs, hc, heq⟩ (hd2 hf).2
    · next heq => rw [heq] at hp; exact hp

end Urlstd
