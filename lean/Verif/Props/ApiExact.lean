/-
Property C67, exactly: the operations on which the library and the standard disagree.
-/
import Verif.Lemmas.ApiExact
import Verif.Props.Api
import Verif.Props.Deviant

namespace Urlstd.Props

open Spec (IsStr IsScalarStr Performs ScalarOp opLength)

/-- both halves, for one operation -/
theorem operation_exact (env : Env) (o : URLObj) (h : Reached env o) (op : Op) (hs : ScalarOp op)
    (hd : env.maxStrDigits = 0 ∨ opLength op ≤ env.maxStrDigits) :
    (¬ Spec.Odd o op → Done (Performs (hostOf env.quiet) o op) (applyOp env o op)) ∧
    (Spec.Odd o op → (∃ f o', Performs (hostOf env.quiet) o op f o') ∧
      ∀ f o', Performs (hostOf env.quiet) o op f o' → (applyOp env o op).2 ≠ o') := by
  have hok := h.objOK (hostSpec_true _)
  have hsc : ∀ p ∈ o.params, IsStr p.1 ∧ IsStr p.2 := fun p hp => ⟨(hok.scalar p hp).1.isStr, (hok.scalar p hp).2.isStr⟩
  have lists : ∀ {l l' : Params}, (∀ p ∈ l, IsStr p.1 ∧ IsStr p.2) → ∀ {odd : Prop}, (odd ↔ l' ≠ l ∨ Spec.HasTilde l) →
      (¬ odd → Done (Spec.Lists o l) (spMutate o l')) ∧
      (odd → (∃ f o', Spec.Lists o l f o') ∧ ∀ f o', Spec.Lists o l f o' → (spMutate o l').2 ≠ o') := by
    intro l l' hl odd ho
    obtain ⟨k1, k2⟩ := lists_exact (l' := l') hok hl
    refine ⟨fun hn => k1 ?_, fun hx => ⟨⟨false, _, rfl, rfl⟩, k2 (ho.1 hx)⟩⟩
    rw [ho] at hn
    exact ⟨Classical.byContradiction fun h => hn (.inl h), fun h => hn (.inr h)⟩
  cases op with
  | hash v => exact ⟨fun _ => done_hash hok hs hd, False.elim⟩
  | href v => exact ⟨fun _ => done_href hok hs hd, False.elim⟩
  | password v => exact ⟨fun _ => done_password hs, False.elim⟩
  | username v => exact ⟨fun _ => done_username hs, False.elim⟩
  | pathname v => exact ⟨fun _ => done_pathname hs hd, False.elim⟩
  | port v => exact ⟨fun _ => done_port hok hs hd, False.elim⟩
  | protocol v =>
    refine ⟨fun hn => done_protocol_exact hok hs hn hd, fun ho => ⟨⟨false, o, odd_protocol_std ho _⟩, fun f o' hp => ?_⟩⟩
    obtain ⟨_, rfl⟩ := performs_unique (odd_protocol_std ho _) hp
    rw [odd_protocol_code ho]
    intro e
    exact ho.2.2.1 (congrArg (fun x : URLObj => x.url.scheme) e).symm
  | host v =>
    refine ⟨fun hn => done_hosts_exact (.inl rfl) hs hn hd, fun ho => ?_⟩
    obtain ⟨h1, h2, h3, h4, h5⟩ := ho
    obtain ⟨k1, k2⟩ := odd_hosts (env := env) (.inl rfl) h1 h2 h3 h5 (hostOf env.quiet)
    refine ⟨⟨false, o, k1⟩, fun f o' hp => ?_⟩
    obtain ⟨_, rfl⟩ := performs_unique k1 hp
    rw [k2]
    intro e
    exact h4 (congrArg (fun x : URLObj => x.url.host) e).symm
  | hostname v =>
    refine ⟨fun hn => done_hosts_exact (.inr rfl) hs hn hd, fun ho => ?_⟩
    obtain ⟨h1, h2, h3, h4, h5⟩ := ho
    obtain ⟨k1, k2⟩ := odd_hosts (env := env) (.inr rfl) h1 h2 h3 h5 (hostOf env.quiet)
    refine ⟨⟨false, o, k1⟩, fun f o' hp => ?_⟩
    obtain ⟨_, rfl⟩ := performs_unique k1 hp
    rw [k2]
    intro e
    exact h4 (congrArg (fun x : URLObj => x.url.host) e).symm
  | search v =>
    refine ⟨fun hn => done_search hok hs (fun c hc ht => hn ⟨c, hc, ht⟩) hd, fun ho => ⟨search_exists hs hd, fun f o' hp e => ?_⟩⟩
    obtain ⟨c, hc, ht⟩ := ho
    exact odd_search hs hc ht (by rw [e]; exact odd_search_std hc _ hp)
  | spAppend n v =>
    have e := (C51_append o.params n v hs.1.isStr hs.2.isStr).1
    show (_ → Done _ (spMutate o (Urlstd.spAppend o.params n v))) ∧ (_ → _ ∧ ∀ f o', _ → (spMutate o (Urlstd.spAppend o.params n v)).2 ≠ o')
    rw [e]
    refine lists (l := o.params ++ [(n, v.toStr)]) ?_ ?_
    · intro p hp
      rcases List.mem_append.1 hp with hp | hp
      · exact hsc p hp
      · rw [List.mem_singleton.1 hp]; exact ⟨hs.1.isStr, hs.2.isStr⟩
    · show (Spec.HasEscape n ∨ Spec.HasEscape v.toStr ∨ _) ↔ _
      rw [← decoded_iff hs.1, ← decoded_iff hs.2, ← or_assoc]
      refine or_congr ?_ Iff.rfl
      constructor
      · intro hx he
        have := List.append_cancel_left he
        simp only [List.cons.injEq, Prod.mk.injEq, and_true] at this
        rcases hx with hx | hx
        · exact hx this.1
        · exact hx this.2
      · intro hx
        refine Classical.byContradiction fun hn => hx ?_
        rw [Classical.not_not.1 fun h => hn (.inl h), Classical.not_not.1 fun h => hn (.inr h)]
  | spSet n v =>
    have e := spSet_setPair o.params n v hs.1.isStr hs.2.isStr
    show (_ → Done _ (spMutate o (Urlstd.spSet o.params n v))) ∧ (_ → _ ∧ ∀ f o', _ → (spMutate o (Urlstd.spSet o.params n v)).2 ≠ o')
    rw [e]
    refine lists (l := Spec.setPair n v.toStr o.params) ?_ Iff.rfl
    intro p hp
    rcases setPair_mem _ _ _ p hp with hp | rfl
    · exact hsc p hp
    · exact ⟨hs.1.isStr, hs.2.isStr⟩
  | spDelete n v =>
    cases v with
    | none =>
      have hs : IsScalarStr n := hs
      have e := C50_delete_name o.params n hs.isStr
      show (_ → Done _ (spMutate o (Urlstd.spDelete o.params n none))) ∧
        (_ → _ ∧ ∀ f o', _ → (spMutate o (Urlstd.spDelete o.params n none)).2 ≠ o')
      rw [e]
      refine lists (l := o.params.filter fun p => p.1 ≠ n) (fun p hp => hsc p (List.mem_filter.1 hp).1) ?_
      refine or_congr ?_ Iff.rfl
      rw [filter_ne_iff, ← decoded_iff hs]
      constructor
      · rintro ⟨hne, p, hp, hx⟩
        refine ⟨p, hp, ?_⟩
        rcases hx with hx | hx
        · rw [hx]; simp [hne.symm]
        · rw [hx]; simp [hne]
      · rintro ⟨p, hp, hx⟩
        have hor : p.1 = n ∨ p.1 = Spec.decoded n := by
          refine Classical.byContradiction fun hn => hx ?_
          rw [not_or] at hn
          simp [hn.1, hn.2]
        refine ⟨fun hne => hx (by rw [hne]), p, hp, hor⟩
    | some v =>
      have hs : IsScalarStr n ∧ IsScalarStr v.toStr := hs
      cases v with
      | str s =>
        have e := C50_delete_value o.params n s hs.1.isStr
        show (_ → Done _ (spMutate o (Urlstd.spDelete o.params n (some (.str s))))) ∧
          (_ → _ ∧ ∀ f o', _ → (spMutate o (Urlstd.spDelete o.params n (some (.str s)))).2 ≠ o')
        rw [e]
        refine lists (l := o.params.filter fun p => ¬ (p.1 = n ∧ p.2 = s)) (fun p hp => hsc p (List.mem_filter.1 hp).1) ?_
        refine or_congr ?_ Iff.rfl
        rw [filter_ne_iff, ← decoded_iff hs.1]
        constructor
        · rintro ⟨hne, hx⟩
          rcases hx with hx | hx
          · exact ⟨_, hx, by simp [hne.symm]⟩
          · exact ⟨_, hx, by simp [hne]⟩
        · rintro ⟨⟨a, b⟩, hp, hx⟩
          have hb : b = s := by
            refine Classical.byContradiction fun hn => hx ?_
            simp [hn]
          subst hb
          have hor : a = n ∨ a = Spec.decoded n := by
            refine Classical.byContradiction fun hn => hx ?_
            rw [not_or] at hn
            simp [hn.1, hn.2]
          refine ⟨fun hne => hx (by rw [hne]), ?_⟩
          rcases hor with rfl | rfl
          · exact .inl hp
          · exact .inr hp
      | num r =>
        have e := C50_delete_number o.params n r
        show (_ → Done _ (spMutate o (Urlstd.spDelete o.params n (some (.num r))))) ∧
          (_ → _ ∧ ∀ f o', _ → (spMutate o (Urlstd.spDelete o.params n (some (.num r)))).2 ≠ o')
        rw [e]
        refine lists (l := o.params.filter fun p => ¬ (p.1 = n ∧ p.2 = r)) (fun p hp => hsc p (List.mem_filter.1 hp).1) ?_
        have hk : o.params ≠ o.params.filter (fun p => ¬ (p.1 = n ∧ p.2 = r)) ↔ (n, r) ∈ o.params := by
          rw [ne_comm, ne_eq, List.filter_eq_self]
          constructor
          · intro hx
            refine Classical.byContradiction fun hn => hx fun p hp => ?_
            have : ¬ (p.1 = n ∧ p.2 = r) := by rintro ⟨rfl, rfl⟩; exact hn hp
            exact decide_eq_true this
          · intro hp hx
            have := hx _ hp
            simp at this
        rw [hk]
        show (_ ∨ Spec.HasTilde o.params) ↔ _
        by_cases hm : (n, r) ∈ o.params
        · exact ⟨fun _ => .inl hm, fun _ => .inl hm⟩
        · have : o.params.filter (fun p => ¬ (p.1 = n ∧ p.2 = r)) = o.params := by
            refine (Classical.not_not.1 fun h => hm (hk.1 h)).symm
          rw [this]
  | spSort =>
    have hsort : Spec.SortedFrom o.params (Urlstd.spSort o.params) := ⟨C53_sort_sorted _, (C53_sort_stable _).1⟩
    have hx : ∀ f o', Performs (hostOf env.quiet) o .spSort f o' ↔ Spec.Lists o (Urlstd.spSort o.params) f o' := by
      intro f o'
      constructor
      · rintro ⟨l, h1, h2⟩
        rw [← C53_sort_unique o.params l h1.1 h1.2]
        exact h2
      · intro h2
        exact ⟨_, hsort, h2⟩
    have hperm := C53_sort_perm o.params
    obtain ⟨k1, k2⟩ := lists (l := Urlstd.spSort o.params) (l' := Urlstd.spSort o.params)
      (odd := Spec.HasTilde o.params) (fun p hp => hsc p (hperm.mem_iff.1 hp)) (by
        constructor
        · rintro ⟨p, hp, ht⟩; exact .inr ⟨p, hperm.mem_iff.2 hp, ht⟩
        · rintro (hn | ⟨p, hp, ht⟩)
          · exact absurd rfl hn
          · exact ⟨p, hperm.mem_iff.1 hp, ht⟩)
    refine ⟨fun hn f o' => (hx f o').trans (k1 hn f o'), fun ho => ?_⟩
    obtain ⟨⟨f, o', hp⟩, k3⟩ := k2 ho
    exact ⟨⟨f, o', (hx _ _).2 hp⟩, fun f o' hp => k3 f o' ((hx _ _).1 hp)⟩

/-- C67. The standard says of every operation what it does: there is exactly one outcome. -/
theorem C67_determined (env : Env) (o : URLObj) (h : Reached env o) (op : Op) (hs : ScalarOp op)
    (hd : env.maxStrDigits = 0 ∨ opLength op ≤ env.maxStrDigits) :
    ∃ failed o', Performs (hostOf env.quiet) o op failed o' ∧
      ∀ failed' o'', Performs (hostOf env.quiet) o op failed' o'' → failed' = failed ∧ o'' = o' := by
  obtain ⟨k1, k2⟩ := operation_exact env o h op hs hd
  by_cases ho : Spec.Odd o op
  · obtain ⟨⟨f, o', hp⟩, _⟩ := k2 ho
    exact ⟨f, o', hp, fun _ _ hp' => performs_unique hp hp'⟩
  · have hp := (k1 ho _ _).2 ⟨rfl, rfl⟩
    exact ⟨_, _, hp, fun _ _ hp' => performs_unique hp hp'⟩

/-- C67, exactly. On every URL object that a program can hold, an operation does what the standard says unless it is one
of those listed in `Spec.Odd`; and every one of these leaves another object than the standard's.

The strings are scalar value strings (C64 has the others), and no longer than the interpreter's limit for digits. The host
parser is the code's own (C66 compares it with the standard's). -/
theorem C67_exact (env : Env) (o : URLObj) (h : Reached env o) (op : Op) (hs : ScalarOp op)
    (hd : env.maxStrDigits = 0 ∨ opLength op ≤ env.maxStrDigits) (failed : Bool) (o' : URLObj)
    (hp : Performs (hostOf env.quiet) o op failed o') :
    ((applyOp env o op).2 = o' ↔ ¬ Spec.Odd o op) ∧
    (¬ Spec.Odd o op → ((applyOp env o op).1 = .ok () ↔ failed = false)) := by
  obtain ⟨k1, k2⟩ := operation_exact env o h op hs hd
  refine ⟨⟨fun he ho => (k2 ho).2 _ _ hp he, fun hn => ((k1 hn _ _).1 hp).2⟩, fun hn => ?_⟩
  have h1 := ((k1 hn _ _).1 hp).1
  cases hr : (applyOp env o op).1 with
  | ok x => rw [hr] at h1; exact ⟨fun _ => h1.symm, fun _ => rfl⟩
  | error e =>
    rw [hr] at h1
    constructor
    · intro h; cases h
    · intro h; rw [h] at h1; cases h1

/-- C67, with the standard's host parser: the same, for every operation that hands it no text of `OddHost` (those on which
the two host parsers differ, C66; setters pass no `validity`, so `env.quiet`). -/
theorem C67_standard_exact (env : Env) (henv : EnvOK env) (hdel : Spec.DelOK env) (o : URLObj) (h : Reached env o) (op : Op)
    (hs : ScalarOp op) (hd : env.maxStrDigits = 0 ∨ opLength op ≤ env.maxStrDigits)
    (hh : ∀ t m, Spec.OpAsks (Spec.hostParser (env.nameToAscii false)) o op t m → ¬ Spec.OddHost env.quiet t m)
    (failed : Bool) (o' : URLObj) (hp : Performs (Spec.hostParser (env.nameToAscii false)) o op failed o') :
    ((applyOp env o op).2 = o' ↔ ¬ Spec.Odd o op) ∧
    (¬ Spec.Odd o op → ((applyOp env o op).1 = .ok () ↔ failed = false)) := by
  refine C67_exact env o h op hs hd failed o' ((Performs_iff (fun t m ha => ?_) failed o').2 hp)
  have hsv : ∀ v, op = .href v ∨ op = .host v ∨ op = .hostname v → IsScalarStr v := by
    rintro v (rfl | rfl | rfl) <;> exact hs
  obtain ⟨h1, h2⟩ := opAsks_mem hsv ha
  rw [hostOf_eq]
  exact (Classical.not_not.1 fun hne => hh t m ha ((C66_host_exact env.quiet henv hdel t h1 m h2).1 hne)).symm

/-! ### Examples -/

-- a URL on port 0 keeps its host when a host is set that is not empty
example : (applyOp exEnv exPortZero (.host u!"g")).2 = { exPortZero with url := { exPortZero.url with host := some (.str u!"g") } } :=
  (C67_exact exEnv exPortZero exPortZero_reached (.host u!"g") (by unfold ScalarOp IsScalarStr Spec.Surrogate; decide) (.inr (by decide))
    false _ ⟨.ok { exPortZero.url with host := some (.str u!"g") }, Spec.exec_halts (n := 10) (by decide +kernel), rfl, rfl⟩).1.2
    (by
      rintro ⟨_, _, _, _, h⟩
      have := h c!"g" (by decide +kernel)
      revert this; decide)

-- ... and not when the text is empty but for a path
example : (applyOp exEnv exPortZero (.host u!"/g")).2 ≠ exPortZero := by
  intro he
  refine (C67_exact exEnv exPortZero exPortZero_reached (.host u!"/g") (by unfold ScalarOp IsScalarStr Spec.Surrogate; decide) (.inr (by decide))
    false _ ⟨.ok exPortZero.url, Spec.exec_halts (n := 10) (by decide +kernel), rfl, rfl⟩).1.1 he
    ⟨⟨rfl, rfl, rfl⟩, by rw [← special_iff]; decide, rfl, by decide, ?_⟩
  intro c hc
  have : (Spec.dropTabs u!"/g").head? = some 47 := by decide +kernel
  rw [this] at hc
  cases hc
  exact .inl rfl

-- an escape that names no pair is harmless for `delete`, one that does is not
example : ¬ Spec.Odd ⟨exPlain.url, [(u!"b", u!"1")]⟩ (.spDelete u!"%41" none) := by
  rintro (⟨_, p, hp, h⟩ | ⟨p, hp, h⟩)
  · rw [List.mem_singleton.1 hp] at h
    revert h
    decide +kernel
  · have := (List.mem_filter.1 hp).1
    rw [List.mem_singleton.1 this] at h
    revert h
    decide

example : Spec.Odd ⟨exPlain.url, [(u!"A", u!"1")]⟩ (.spDelete u!"%41" none) :=
  .inl ⟨⟨[], c!"4", c!"1", [], rfl, by decide, by decide⟩, (u!"A", u!"1"), by simp, .inr (by decide +kernel)⟩

end Urlstd.Props
