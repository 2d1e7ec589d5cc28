/-
Property C91: what a reference takes from its base, and what it does not.
-/
import Verif.Lemmas.Depend
import Verif.Props.Denote

namespace Urlstd.Props

open Spec (IsStr Denotes FileText Relative tailText TailOK Common RefersTo TwoSlashes NoPath NoQuery NoSlash driveOf asBase GoodBase dropTabs stripC0 isSpecial
  isOpaque SameAuthority)

theorem goodBase_list {b : Rec} (h : GoodBase (some b)) : isSpecial b.scheme = true → isOpaque b = false := by
  intro hs
  obtain ⟨p, hp⟩ := h b rfl hs
  unfold isOpaque
  rw [hp]

theorem parse_denotes (env : Env) (s : Str) (b : Rec) (hs : IsStr s) (hb : GoodBase (some b)) :
    Denotes env (some b) (dropTabs (stripC0 s)) (parseUrl env s (.record b)).res :=
  (C83_denotes env s (some b) hs hb _).1 rfl

/-- a text that does not begin with a letter is its own reference -/
theorem refersTo_self {b : Rec} {c : Nat} {t r : Str} (hc : ¬ Spec.Letter c) (h : RefersTo b (c :: t) r) : r = c :: t := by
  rcases h with ⟨-, h⟩ | ⟨-, sc, ⟨x, xs, rfl, hx, -⟩, -, h⟩
  · exact h
  · simp only [List.cons_append] at h
    injection h with h _
    rw [h] at hc
    exact absurd hx hc

theorem exRecord_base : GoodBase (some exRecord) := by
  rintro b ⟨⟩ _
  exact ⟨_, rfl⟩

/-- C91. Two bases with the same scheme, both with an opaque path or both without, that have in common what the reference takes from
its base, give the same result. -/
theorem C91_common (env : Env) (s : Str) (b b' : Rec) (hs : IsStr s) (hb : GoodBase (some b)) (hb' : GoodBase (some b'))
    (h1 : b.scheme = b'.scheme) (h2 : isOpaque b = isOpaque b')
    (hc : ∀ r, RefersTo b (dropTabs (stripC0 s)) r → Common b b' r) :
    (parseUrl env s (.record b)).res = (parseUrl env s (.record b')).res :=
  ((C83_denotes env s (some b') hs hb' _).2
    (denotes_common (goodBase_list hb) h2 h1 hc (parse_denotes env s b hs hb))).symm

example : (parseUrl exEnv u!"/x?y" (.record exRecord)).res =
    (parseUrl exEnv u!"/x?y" (.record { exRecord with path := .list [u!"other"], query := none })).res := by
  refine C91_common _ _ _ _ (by decide) exRecord_base (by rintro b ⟨⟩ _; exact ⟨_, rfl⟩) rfl rfl fun r hr => ?_
  have hr : r = u!"/x?y" := refersTo_self (by decide) hr
  subst hr
  refine ⟨fun _ _ => ⟨fun _ => ⟨rfl, rfl, rfl, rfl, rfl⟩, by decide⟩, fun h => absurd h (by decide), fun h => ?_, fun h => ?_⟩
  · exact absurd (h _ rfl) (by decide)
  · exact absurd (h _ rfl) (by decide)

/-- what is taken matters: host, directory, path and query -/
example : (parseUrl exEnv u!"/x" (.record exRecord)).res ≠ (parseUrl exEnv u!"/x" (.record { exRecord with host := some (.str u!"h") })).res := by
  decide +kernel
example : (parseUrl exEnv u!"x" (.record exRecord)).res ≠ (parseUrl exEnv u!"x" (.record { exRecord with path := .list [u!"x", u!"y", u!"z"] })).res := by
  decide +kernel
example : (parseUrl exEnv u!"?x" (.record exRecord)).res ≠ (parseUrl exEnv u!"?x" (.record { exRecord with path := .list [u!"x", u!"y"] })).res := by
  decide +kernel
example : (parseUrl exEnv u!"#x" (.record exRecord)).res ≠ (parseUrl exEnv u!"#x" (.record { exRecord with query := none })).res := by
  decide +kernel
/-- the drive letter of a file URL -/
example : (parseUrl exEnv u!"/x" (.record (Spec.fileURL none [u!"C:", u!"y"] none none))).res ≠
    (parseUrl exEnv u!"/x" (.record (Spec.fileURL none [u!"D:", u!"y"] none none))).res := by
  decide +kernel

/-- C91. A text with a scheme that is not the special scheme of the base takes nothing from the base. -/
theorem C91_absolute (env : Env) (s : Str) (b : Rec) (hs : IsStr s) (hb : GoodBase (some b))
    (h : ∀ r, ¬ RefersTo b (dropTabs (stripC0 s)) r) :
    (parseUrl env s (.record b)).res = (parseUrl env s .none).res :=
  ((C83_denotes env s none hs (by intro b h; cases h) _).2 (denotes_absolute h (parse_denotes env s b hs hb))).symm

theorem schemeText_colon {sc : Str} (h : Spec.SchemeText sc) : ∀ c ∈ sc, c ≠ c!":" := by
  obtain ⟨c, cs, rfl, h1, h2⟩ := h
  rintro x hx rfl
  rcases List.mem_cons.1 hx with rfl | hx
  · exact absurd h1 (by decide)
  · exact absurd (h2 _ hx) (by decide)

theorem colon_unique : ∀ {a a' r r' : Str}, (∀ c ∈ a, c ≠ c!":") → (∀ c ∈ a', c ≠ c!":") →
    a ++ u!":" ++ r = a' ++ u!":" ++ r' → a = a' ∧ r = r'
  | [], [], _, _, _, _, h => ⟨rfl, by injection h⟩
  | [], c :: _, _, _, _, h', h => by injection h with h _; exact absurd h.symm (h' c (.head _))
  | c :: _, [], _, _, h', _, h => by injection h with h _; exact absurd h (h' c (.head _))
  | c :: a, c' :: a', r, r', h1, h2, h => by
    simp only [List.cons_append] at h
    injection h with hc h
    obtain ⟨e, e'⟩ := colon_unique (a := a) (a' := a') (fun x hx => h1 x (.tail _ hx)) (fun x hx => h2 x (.tail _ hx)) h
    exact ⟨by rw [hc, e], e'⟩

theorem refersTo_scheme {b : Rec} {t sc rest : Str} (hsc : Spec.SchemeText sc) (ht : t = sc ++ u!":" ++ rest)
    (h : Spec.toLower sc ≠ b.scheme ∨ isSpecial b.scheme = false) : ∀ r, ¬ RefersTo b t r := by
  rintro r (⟨h1, -⟩ | ⟨h1, sc', hsc', h2, h3⟩)
  · exact h1 ⟨sc, rest, hsc, ht⟩
  · have := (colon_unique (schemeText_colon hsc) (schemeText_colon hsc') (ht.symm.trans h3)).1
    rw [← this] at h2
    rcases h with h | h
    · exact h h2
    · rw [h] at h1; cases h1

example : (parseUrl exEnv u!"ws:y" (.record exRecord)).res = (parseUrl exEnv u!"ws:y" .none).res :=
  C91_absolute _ _ _ (by decide) exRecord_base
    (refersTo_scheme (sc := u!"ws") (rest := u!"y") ⟨c!"w", u!"s", rfl, by decide, by decide⟩ (by decide) (.inl (by decide)))

/-- behind the special scheme of the base it is otherwise -/
example : (parseUrl exEnv u!"http:y" (.record { exRecord with scheme := u!"http" })).res ≠ (parseUrl exEnv u!"http:y" .none).res := by
  decide +kernel

theorem asBase_opaque {b : Rec} (h : isOpaque b = true) : asBase b = { scheme := b.scheme, path := b.path, query := b.query } := if_pos h

theorem asBase_file {b : Rec} (h : isOpaque b = false) (hf : b.scheme = u!"file") :
    asBase b = { scheme := b.scheme, host := b.host, path := b.path, query := b.query } := by
  unfold asBase
  rw [if_neg (by rw [h]; decide), if_pos hf]

theorem asBase_list {b : Rec} (h : isOpaque b = false) (hf : b.scheme ≠ u!"file") : asBase b = { b with fragment := none } := by
  unfold asBase
  rw [if_neg (by rw [h]; decide), if_neg hf]

/-- C91. Against "#" a base shows all that it can contribute. -/
theorem C91_hash (env : Env) (b : Rec) (hb : GoodBase (some b)) :
    (parseUrl env u!"#" (.record b)).res = .ok { asBase b with fragment := some [] } := by
  refine (C83_denotes env u!"#" (some b) (by decide) hb _).2 ?_
  rw [show dropTabs (stripC0 u!"#") = u!"#" ++ [] by decide]
  have hns : ¬ Spec.HasScheme (u!"#" ++ []) := by
    rintro ⟨sc, rest, ⟨c, cs, rfl, hl, -⟩, he⟩
    simp only [List.cons_append] at he
    injection he with he _
    subst he
    exact absurd hl (by decide)
  cases hp : b.path with
  | «opaque» t =>
    rw [asBase_opaque (by unfold isOpaque; rw [hp])]
    exact .opaqueFragment [] b t rfl hp
  | list p =>
    have ho : isOpaque b = false := by unfold isOpaque; rw [hp]
    by_cases hf : b.scheme = u!"file"
    · rw [asBase_file ho hf]
      refine .fileBase _ b p _ hns rfl hp hf ?_
      rw [hf]
      exact FileText.same b none (some []) rfl hf (.inr (by simp)) ⟨by simp, by simp⟩
    · rw [asBase_list ho hf]
      exact .reference _ b p _ hns rfl hp hf (Relative.same none (some []) ⟨by simp, by simp⟩)

example : (parseUrl exEnv u!"#" (.record exRecord)).res = .ok { exRecord with fragment := some [] } := C91_hash _ _ exRecord_base

/-- C91. What `asBase` keeps of a base is exactly what some text or other takes from it: two bases have the same result for every text
if and only if they agree in this. -/
theorem C91_asBase (env : Env) (b b' : Rec) (hb : GoodBase (some b)) (hb' : GoodBase (some b')) :
    (∀ s, IsStr s → (parseUrl env s (.record b)).res = (parseUrl env s (.record b')).res) ↔ asBase b = asBase b' := by
  constructor
  · intro h
    have := h u!"#" (by decide)
    rw [C91_hash env b hb, C91_hash env b' hb'] at this
    injection this with this
    have hfr : ∀ b : Rec, { { asBase b with fragment := some [] } with fragment := none } = asBase b := by
      intro b; unfold asBase; split
      · rfl
      · split <;> rfl
    rw [← hfr b, ← hfr b', this]
  · intro h s hs
    have hsch : ∀ b : Rec, (asBase b).scheme = b.scheme ∧ (asBase b).path = b.path ∧ (asBase b).query = b.query := by
      intro b; unfold asBase; split
      · exact ⟨rfl, rfl, rfl⟩
      · split <;> exact ⟨rfl, rfl, rfl⟩
    obtain ⟨a1, a2, a3⟩ := hsch b
    obtain ⟨b1, b2, b3⟩ := hsch b'
    have e1 : b.scheme = b'.scheme := by rw [← a1, ← b1, h]
    have e2 : b.path = b'.path := by rw [← a2, ← b2, h]
    have e3 : b.query = b'.query := by rw [← a3, ← b3, h]
    have ho : isOpaque b = isOpaque b' := by unfold isOpaque; rw [e2]
    refine C91_common env s b b' hs hb hb' e1 ho (fun r _ => ⟨fun hl _ => ⟨fun hf => ?_, fun hf => ?_⟩, fun _ p p' hp hp' => ?_, fun _ => e2, fun _ => e3⟩)
    · rw [asBase_list hl hf, asBase_list (ho ▸ hl) (e1 ▸ hf), Rec.mk.injEq] at h
      exact ⟨e1, h.2.1, h.2.2.1, h.2.2.2.1, h.2.2.2.2.1⟩
    · rw [asBase_file hl hf, asBase_file (ho ▸ hl) (e1 ▸ hf), Rec.mk.injEq] at h
      refine ⟨h.2.2.2.1, ?_⟩
      unfold driveOf
      rw [e1, e2]
    · rw [hp, hp'] at e2
      injection e2 with e2
      rw [e2]

example : asBase exRecord = asBase { exRecord with fragment := some u!"x" } := rfl
example : asBase exRecord ≠ asBase { exRecord with query := some u!"x" } := by decide

/-- C91. The fragment of a base never matters. -/
theorem C91_fragment (env : Env) (s : Str) (b : Rec) (f : Option Str) (hs : IsStr s) (hb : GoodBase (some b)) :
    (parseUrl env s (.record { b with fragment := f })).res = (parseUrl env s (.record b)).res := by
  have hb' : GoodBase (some { b with fragment := f }) := by
    rintro c ⟨⟩ h
    exact hb b rfl h
  exact (C91_asBase env _ _ hb' hb).2 rfl s hs

example : (parseUrl exEnv u!"" (.record { exRecord with fragment := some u!"x" })).res = (parseUrl exEnv u!"" (.record exRecord)).res :=
  C91_fragment _ _ _ _ (by decide) exRecord_base

/-- C91. The query of a base matters only for a reference that has neither path nor query. -/
theorem C91_query (env : Env) (s : Str) (b : Rec) (q : Option Str) (hs : IsStr s) (hb : GoodBase (some b))
    (h : ∀ r, RefersTo b (dropTabs (stripC0 s)) r → ¬ NoQuery r) :
    (parseUrl env s (.record { b with query := q })).res = (parseUrl env s (.record b)).res := by
  have hb' : GoodBase (some { b with query := q }) := by
    rintro c ⟨⟩ h
    exact hb b rfl h
  refine (C91_common env s b { b with query := q } hs hb hb' rfl rfl (fun r hr => ⟨fun _ _ => ⟨fun _ => ⟨rfl, rfl, rfl, rfl, rfl⟩, fun _ => ⟨rfl, rfl⟩⟩, ?_, fun _ => rfl, fun hq => absurd hq (h r hr)⟩)).symm
  intro _ p p' hp hp'
  rw [show ({ b with query := q } : Rec).path = b.path from rfl, hp] at hp'
  injection hp' with hp'
  rw [hp']

example : (parseUrl exEnv u!"?y#z" (.record { exRecord with query := some u!"x" })).res = (parseUrl exEnv u!"?y#z" (.record exRecord)).res := by
  refine C91_query _ _ _ _ (by decide) exRecord_base fun r hr h => ?_
  have hr : r = u!"?y#z" := refersTo_self (by decide) hr
  subst hr
  exact absurd (h _ rfl) (by decide)

/-- C91. Behind two slashes only the scheme of the base matters (and that its path is not opaque). -/
theorem C91_scheme (env : Env) (s : Str) (b b' : Rec) (hs : IsStr s) (hb : GoodBase (some b)) (hb' : GoodBase (some b'))
    (h1 : b.scheme = b'.scheme) (h2 : isOpaque b = isOpaque b')
    (h : ∀ r, RefersTo b (dropTabs (stripC0 s)) r → TwoSlashes (isSpecial b.scheme) r) :
    (parseUrl env s (.record b)).res = (parseUrl env s (.record b')).res :=
  C91_common env s b b' hs hb hb' h1 h2 fun r hr =>
    ⟨fun _ hn => absurd (h r hr) hn, fun hn => absurd (h r hr) (noSlash_not_two hn),
      fun hn => absurd (h r hr) (noSlash_not_two (noPath_noSlash hn)),
      fun hn => absurd (h r hr) (noSlash_not_two (noPath_noSlash (fun c hc => .inr (hn c hc))))⟩

example : (parseUrl exEnv u!"/\\y/z" (.record exRecord)).res =
    (parseUrl exEnv u!"/\\y/z" (.record { scheme := exRecord.scheme, path := .list [] })).res := by
  refine C91_scheme _ _ _ _ (by decide) exRecord_base (by rintro b ⟨⟩ _; exact ⟨_, rfl⟩) rfl rfl fun r hr => ?_
  have hr : r = u!"/\\y/z" := refersTo_self (by decide) hr
  subst hr
  exact ⟨_, _, _, rfl, by decide, by decide⟩

theorem parent_slash (f : Bool) (p : List Str) : Spec.parent f (p ++ [[]]) = p := by
  unfold Spec.parent
  rw [if_neg, List.dropLast_concat]
  rintro ⟨-, d, hd, he, hn⟩
  cases p with
  | nil => injection he with he _; subst he; exact absurd hn (by decide)
  | cons x xs => injection he with _ he; exact absurd he (by simp)

theorem drive_parent {b d : Rec} {p : List Str} (hp : b.path = .list p) (hs : b.scheme = d.scheme)
    (hd : d.path = .list (Spec.parent true p ++ [[]])) : driveOf b = driveOf d := by
  have h0 : Spec.isNormDrive [] = false := by decide
  unfold driveOf
  rw [hp, hd, ← hs]
  rcases p with _ | ⟨x, _ | ⟨y, ys⟩⟩
  · simp [Spec.parent, h0]
  · by_cases h : Spec.isNormDrive x = true
    · simp [Spec.parent, h]
    · simp [Spec.parent, h, h0]
  · rw [show Spec.parent true (x :: y :: ys) = x :: (y :: ys).dropLast by simp [Spec.parent]]
    rfl

theorem common_directory {b d : Rec} {p : List Str} {r : Str} (hp : b.path = .list p) (hs : b.scheme = d.scheme)
    (ha : b.scheme ≠ u!"file" → SameAuthority b d) (hh : b.host = d.host)
    (hd : d.path = .list (Spec.parent (Spec.isFile b.scheme) p ++ [[]])) (hr : ¬ NoPath r) : Common b d r := by
  refine ⟨fun _ _ => ⟨ha, fun hf => ⟨hh, drive_parent hp hs ?_⟩⟩, fun _ q q' hq hq' => ?_, fun h => absurd h hr,
    fun h => absurd (fun c hc => .inr (h c hc)) hr⟩
  · rw [hd, hf]; rfl
  · rw [hp] at hq
    rw [hd] at hq'
    injection hq with hq
    injection hq' with hq'
    rw [← hq, ← hq', parent_slash]

/-- C91. A base and its directory, which is what "." refers to, give the same result for every reference that has a path. -/
theorem C91_dot (env : Env) (s : Str) (b d : Rec) (hs : IsStr s) (hb : GoodBase (some b))
    (hd : (parseUrl env u!"." (.record b)).res = .ok d) (h : ∀ r, RefersTo b (dropTabs (stripC0 s)) r → ¬ NoPath r) :
    (parseUrl env s (.record d)).res = (parseUrl env s (.record b)).res := by
  have hns : ¬ Spec.HasScheme u!"." := by
    rintro ⟨sc, rest, ⟨c, cs, rfl, hl, -⟩, he⟩
    simp only [List.cons_append] at he
    injection he with he _
    subst he
    exact absurd hl (by decide)
  have hdot := fun x => C83_denotes env u!"." (some b) (by decide) hb x
  rw [show dropTabs (stripC0 u!".") = u!"." by decide] at hdot
  cases hp : b.path with
  | «opaque» t =>
    have := (hdot _).2 (.opaqueOther _ b t hns rfl hp (by decide))
    rw [show baseArg (some b) = .record b from rfl, hd] at this
    cases this
  | list p =>
    have ho : isOpaque b = false := by unfold isOpaque; rw [hp]
    by_cases hf : b.scheme = u!"file"
    · have := (hdot _).2 (.fileBase _ b p _ hns rfl hp hf
        (FileText.path b p u!"." none none rfl hf hp (by decide) (by decide) ⟨by decide, by simp⟩))
      rw [show baseArg (some b) = .record b from rfl, hd] at this
      injection this with this
      rw [show Spec.segmentsOf true u!"." = [u!"."] by decide, if_neg (by decide)] at this
      have hpd : d.path = .list (Spec.parent (Spec.isFile b.scheme) p ++ [[]]) := by rw [this, hf]; rfl
      refine (C91_common env s b d hs hb ?_ ?_ ?_ fun r hr => common_directory hp ?_ ?_ ?_ hpd (h r hr)).symm
      · rintro c ⟨⟩ _; exact ⟨_, hpd⟩
      · rw [this]; exact hf
      · rw [ho]; unfold isOpaque; rw [hpd]
      · rw [this]; exact hf
      · exact absurd hf
      · rw [this]; rfl
    · have := (hdot _).2 (.reference _ b p _ hns rfl hp hf
        (Relative.path p u!"." none none hp (by decide) (by intro c hc; cases hc; rintro (h | ⟨-, h⟩) <;> cases h) ⟨by decide, by simp⟩))
      rw [show baseArg (some b) = .record b from rfl, hd] at this
      injection this with this
      rw [show Spec.segmentsOf (isSpecial b.scheme) u!"." = [u!"."] by cases isSpecial b.scheme <;> decide] at this
      have hpd : d.path = .list (Spec.parent (Spec.isFile b.scheme) p ++ [[]]) := by
        rw [this, show Spec.isFile b.scheme = false by simpa [Spec.isFile] using hf]; rfl
      refine (C91_common env s b d hs hb ?_ ?_ ?_ fun r hr => common_directory hp ?_ ?_ ?_ hpd (h r hr)).symm
      · rintro c ⟨⟩ _; exact ⟨_, hpd⟩
      · rw [this]
      · rw [ho]; unfold isOpaque; rw [hpd]
      · rw [this]
      · intro _; rw [this]; exact ⟨rfl, rfl, rfl, rfl, rfl⟩
      · rw [this]

example (d : Rec) (hd : (parseUrl exEnv u!"." (.record exRecord)).res = .ok d) :
    (parseUrl exEnv u!"./x/../y" (.record d)).res = (parseUrl exEnv u!"./x/../y" (.record exRecord)).res := by
  refine C91_dot _ _ _ _ (by decide) exRecord_base hd fun r hr h => ?_
  have hr : r = u!"./x/../y" := refersTo_self (by decide) hr
  subst hr
  exact absurd (h _ rfl) (by decide)

example : (parseUrl exEnv u!"." (.record exRecord)).res =
    .ok { exRecord with path := .list [u!"a", u!""], query := none, fragment := none } := by decide +kernel

end Urlstd.Props
