/-
Property C87: the size of a URL is linear in the text it was made from.
-/
import Verif.Lemmas.Size4
import Verif.Props.Anatomy
import Verif.Props.History

namespace Urlstd.Props

open Spec (IsStr IdnaFactor Fed)

theorem exEnv_factor : IdnaFactor exEnv 12 := by
  intro d out errs _ h
  unfold exEnv at h
  dsimp only at h
  split at h
  · cases h
    simp only [lower, List.length_map]
    omega
  · cases h

/-- Parsing without a base: the URL's text is at most `C` times as long as the input, for every `C` from 12 up that bounds
what the IDNA library adds. -/
theorem C87_parse (env : Env) {C : Nat} (hC : 12 ≤ C) (hi : IdnaFactor env C) (s : Str) (hs : IsStr s) (u : Rec)
    (h : (parseUrl env s).res = .ok u) : u.serialize.length ≤ C * s.length := by
  have h1 := (parse_bulk hC (qLen_ok hC) hi hs (base := none) (by intro b hb; cases hb) h).1 rfl
  have h2 := serialize_len (Q := qLen) (fun q => Nat.le_refl _) u
  omega

-- a control character and the characters of two and three bytes
example : (parseUrl exEnv (u!"a:" ++ [1, 0xE9, 0x20AC])).res = .ok { scheme := u!"a", path := .opaque u!"%01%C3%A9%E2%82%AC" } ∧
    ∀ u, (parseUrl exEnv (u!"a:" ++ [1, 0xE9, 0x20AC])).res = .ok u → u.serialize.length ≤ 12 * 5 :=
  ⟨by decide +kernel, C87_parse exEnv (Nat.le_refl _) exEnv_factor _ (by decide)⟩

/-- Against a base the reference adds at most `C` times its own length to the base's text. -/
theorem C87_resolve (env : Env) {C : Nat} (hC : 12 ≤ C) (hi : IdnaFactor env C) (s : Str) (hs : IsStr s) (b : URLObj)
    (hb : Reached env b) (u : Rec) (h : (parseUrl env s (.record b.url)).res = .ok u) :
    u.serialize.length ≤ b.href.length + C * s.length + 7 := by
  have h1 := (parse_bulk hC (qLen_ok hC) hi hs (reached_base hb) h).2
  have h2 := serialize_len (Q := qLen) (fun q => Nat.le_refl _) u
  have h3 := bulk_le_serialize (hb.objOK (hostSpec_true _)).url
  have h4 : b.href = b.url.serialize := rfl
  simp only [Option.elim] at h1
  rw [h4]
  omega

example : ∀ u, (parseUrl exEnv u!"../b?'" (.record exStart.url)).res = .ok u → u.serialize.length ≤ exStart.href.length + 12 * 6 + 7 :=
  C87_resolve exEnv (Nat.le_refl _) exEnv_factor _ (by decide) exStart exStart_reached

/-- The host alone. -/
theorem C87_host (env : Env) {C : Nat} (hC : 12 ≤ C) (hi : IdnaFactor env C) (t : Str) (ht : IsStr t) (no : Bool) (h : Host)
    (hh : (hostParse env t no).res = .ok h) : (hostSerialize h).length ≤ C * t.length + 3 :=
  hostParse_length hC hi ht hh

example : (hostParse exEnv u!"0x7F.1" false).res = .ok (.ipv4 0x7F000001) ∧ (hostSerialize (.ipv4 0x7F000001)).length ≤ 12 * 6 + 3 :=
  ⟨by decide +kernel, C87_host exEnv (Nat.le_refl _) exEnv_factor u!"0x7F.1" (by decide) false _ (by decide +kernel)⟩

/-- However an object was made and changed, its text is at most `C` times as long as all text given by the program,
counting one character more for every call. -/
theorem C87_history (env : Env) {C : Nat} (hC : 12 ≤ C) (hi : IdnaFactor env C) (o : URLObj) (n : Nat) (h : Fed env o n) :
    o.href.length ≤ C * n := by
  have h1 := fed_bulk hC hi h
  have h2 := serialize_len (Q := qSize C) (fun q => Nat.le_max_left _ _) o.url
  have h4 : o.href = o.url.serialize := rfl
  rw [h4]
  omega

-- the query is written twice in different encodings, the credentials twice, and only the last text remains
example : (applyOps exEnv exStart [.search u!"a='~", .spSort, .username u!"x", .username u!"@"]).href.length ≤
    12 * (17 + (4 + 1) + (0 + 1) + (1 + 1) + (1 + 1)) := by
  have h0 : Fed exEnv exStart 17 := .new (s := u!"http://h/a?x=1#f") (by decide) (by decide +kernel)
  have h1 := h0.op (op := .search u!"a='~") (by unfold Op.IsStr; decide)
  have h2 := h1.op (op := .spSort) trivial
  have h3 := h2.op (op := .username u!"x") (by unfold Op.IsStr; decide)
  exact C87_history exEnv (Nat.le_refl _) exEnv_factor _ _ (h3.op (op := .username u!"@") (by unfold Op.IsStr; decide))

/-- `Fed` speaks about all objects. -/
theorem C87_fed (env : Env) (o : URLObj) : Reached env o ↔ ∃ n, Fed env o n :=
  ⟨Reached.fed, fun ⟨_, h⟩ => Fed.reached h⟩

example : ∃ n, Fed exEnv exStart n := (C87_fed exEnv exStart).1 exStart_reached

/-- `k` characters of four bytes -/
theorem emoji_length (k : Nat) : (Spec.fragmentEncode (List.replicate k 0x1F600)).length = 12 * k := by
  have h1 : ∀ k, Spec.combineSurrogates (List.replicate k 0x1F600) = List.replicate k 0x1F600 := by
    intro k
    induction k with
    | zero => rfl
    | succ k ih =>
      cases k with
      | zero => rfl
      | succ k =>
        rw [List.replicate_succ] at ih ⊢
        rw [List.replicate_succ, Spec.combineSurrogates]
        simp [ih, show ¬ Spec.Surrogate 0x1F600 by decide]
  unfold Spec.fragmentEncode Spec.percentEncode Spec.utf8
  rw [h1]
  induction k with
  | zero => rfl
  | succ k ih =>
    rw [List.replicate_succ, List.flatMap_cons, List.flatMap_append, List.length_append, ih, Nat.mul_add, Nat.add_comm]
    rfl

/-- The factor 12 cannot be replaced by a smaller one, not even with a constant added, and whatever the IDNA library does: a
URL made from characters of four bytes exceeds it. -/
theorem C87_sharp (env : Env) (C D : Nat) (hC : C < 12) :
    ∃ s u, IsStr s ∧ (parseUrl env s).res = .ok u ∧ C * s.length + D < u.serialize.length := by
  let p : Spec.Parts := { host := u!"h", fragment := some (List.replicate (D + 61) 0x1F600) }
  have hmem : ∀ c ∈ p.text, c ∈ [c!"h", c!"#", 0x1F600] := by
    intro c hc
    simp only [Spec.Parts.text, p, Option.elim, List.mem_append, List.mem_replicate] at hc
    simp at hc ⊢
    omega
  have all : ∀ c ∈ [c!"h", c!"#", 0x1F600], c ≤ 0x10FFFF ∧ ¬ Spec.TabOrNewline c ∧ ¬ Spec.C0OrSpace c := by decide
  have hstr : IsStr p.text := fun c hc => (all c (hmem c hc)).1
  have hhost : ∀ c ∈ u!"h", ¬ Spec.AuthorityEnd (Spec.isSpecial (Spec.toLower u!"a")) c ∧ c ≠ c!"@" := by
    unfold Spec.AuthorityEnd; decide
  have := (C81_absolute env u!"a" [] p ⟨c!"a", [], rfl, by decide, by decide⟩ (by decide)
    ⟨by simp [p], hhost, by
      intro a b h
      have h : u!"h" = a ++ u!":" ++ b := h
      have : c!":" ∈ u!"h" := by rw [h]; simp
      exact absurd this (by decide), by simp [p], by simp [p], by simp [p], by simp [p], by simp [p]⟩ (by decide) hstr
    (fun c hc => (all c (hmem c hc)).2.1) (fun c hc => (all c (hmem c (List.mem_of_getLast? hc))).2.2)).1
  let r : Rec := { scheme := u!"a", host := some (.str u!"h"), path := .list [], fragment := some (Spec.fragmentEncode (List.replicate (D + 61) 0x1F600)) }
  refine ⟨_, r, ?_, this.trans rfl, ?_⟩
  · intro c hc
    rw [List.append_nil, List.mem_append] at hc
    rcases hc with hc | hc
    · revert c; decide
    · exact hstr c hc
  · have h1 := emoji_length (D + 61)
    have h2 := Nat.mul_le_mul_right (D + 67) (Nat.le_of_lt_succ hC)
    have h3 : (u!"a" ++ u!"://" ++ [] ++ p.text).length = D + 67 := by
      simp [Spec.Parts.text, p]
    have h4 : r.serialize.length = 12 * (D + 61) + 6 := by
      rw [← h1]
      have : r.serialize = u!"a://h#" ++ Spec.fragmentEncode (List.replicate (D + 61) 0x1F600) := rfl
      rw [this, List.length_append, Nat.add_comm]
      rfl
    rw [h3, h4]
    omega

end Urlstd.Props
