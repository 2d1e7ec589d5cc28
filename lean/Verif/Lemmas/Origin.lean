/-
Lemmas for origins, equality and `urlparse`.
-/
import Verif.Lemmas.History
import Verif.Spec.Origin

set_option linter.unusedSimpArgs false
set_option linter.unusedVariables false

namespace Urlstd

open Spec (IsStr)

/-! ### The fragment in the serialization -/

theorem serialize_fragment (u : Rec) :
    u.serialize = u.serialize true ++ (match u.fragment with | some f => c!"#" :: f | none => []) := by
  unfold Rec.serialize
  simp only [if_true, List.append_nil, Bool.false_eq_true, if_false]
  rfl

theorem serialize_true_congr {u v : Rec} (h : { u with fragment := v.fragment } = v) :
    u.serialize true = v.serialize true := by
  rw [← h]; unfold Rec.serialize; rfl

theorem SchemeOK.no_hash {s : Str} (h : SchemeOK s) : ∀ c ∈ s, c ≠ 35 := by
  obtain ⟨c, cs, rfl, hc, hcs⟩ := h
  intro x hx
  rcases List.mem_cons.1 hx with rfl | hx
  · omega
  · have := (hcs x hx).1
    rintro rfl
    exact absurd this (by decide)

theorem WF.no_hash {k : Bool} {env : Env} {u : Rec} (h : WF k (HostWF env) u) : ∀ c ∈ u.serialize true, c ≠ 35 := by
  have e : u.serialize true = u.beforePath ++ serializePath u.path ++ (match u.query with | some q => c!"?" :: q | none => []) := by
    unfold Rec.serialize Rec.beforePath
    simp only [if_true, List.append_nil]
    rfl
  intro c hc
  rw [e, List.mem_append, List.mem_append] at hc
  rcases hc with (hc | hc) | hc
  · rcases beforePath_mem hc with hc | hc | hc | ⟨x, hx, hc⟩ | hc | hc
    · exact h.auth.scheme.no_hash c hc
    · have := h.auth.user c hc; rintro rfl; exact absurd this (by decide)
    · have := h.auth.pass c hc; rintro rfl; exact absurd this (by decide)
    · exact ((h.auth.host x hx).text.chars c hc).1
    · rw [isDigit_iff] at hc; omega
    · omega
  · have hp := h.path
    unfold PathWF at hp
    cases hpath : u.path with
    | list p =>
      rw [hpath] at hp hc
      simp only [serializePath, List.mem_flatMap] at hc
      obtain ⟨s, hs, hc⟩ := hc
      rcases List.mem_cons.1 hc with hc | hc
      · omega
      · have := ((hp.1.segs s hs).chars c hc).1
        rintro rfl; exact absurd this (by decide)
    | «opaque» s =>
      rw [hpath] at hp hc
      have := (hp.1.chars c hc).2
      rintro rfl; exact absurd this (by decide)
  · cases hq : u.query with
    | none => rw [hq] at hc; simp at hc
    | some q =>
      rw [hq] at hc
      rcases List.mem_cons.1 hc with hc | hc
      · omega
      · have := h.query q hq c hc
        rintro rfl
        cases hsp : u.isSpecial <;> rw [hsp] at this <;> exact absurd this (by decide)

theorem WF.serialize_true {k : Bool} {env : Env} {u : Rec} (h : WF k (HostWF env) u) :
    u.serialize true = u.serialize.takeWhile (· ≠ c!"#") := by
  rw [serialize_fragment u]
  have hn := h.no_hash
  have : (u.serialize true ++ (match u.fragment with | some f => c!"#" :: f | none => [])).takeWhile (· ≠ c!"#") =
      u.serialize true := by
    apply takeWhile_append
    · intro c hc; simpa using hn c hc
    · intro c hc
      cases hf : u.fragment with
      | none => rw [hf] at hc; simp at hc
      | some f => rw [hf] at hc; simp at hc; subst hc; rfl
  exact this.symm

/-! ### urlparse -/

theorem splitFirst_none {sep : Nat} {s : Str} (h : sep ∉ s) : splitFirst sep s = (s, []) := by
  induction s with
  | nil => rfl
  | cons c cs ih =>
    simp only [List.mem_cons, not_or] at h
    unfold splitFirst
    rw [if_neg (Ne.symm h.1), ih h.2]

theorem splitFirst_some {sep : Nat} {s t : Str} (h : sep ∉ s) : splitFirst sep (s ++ sep :: t) = (s, t) := by
  induction s with
  | nil => simp [splitFirst]
  | cons c cs ih =>
    simp only [List.mem_cons, not_or] at h
    rw [List.cons_append, splitFirst, if_neg (Ne.symm h.1), ih h.2]

/-- either the separator does not occur or the string splits at its first occurrence -/
theorem first_sep (sep : Nat) (s : Str) : sep ∉ s ∨ ∃ a b, s = a ++ sep :: b ∧ sep ∉ a := by
  induction s with
  | nil => exact .inl (by simp)
  | cons c cs ih =>
    by_cases hc : c = sep
    · exact .inr ⟨[], cs, by rw [hc]; rfl, by simp⟩
    · rcases ih with h | ⟨a, b, rfl, h⟩
      · exact .inl (by simp only [List.mem_cons, not_or]; exact ⟨Ne.symm hc, h⟩)
      · exact .inr ⟨c :: a, b, rfl, by simp only [List.mem_cons, not_or]; exact ⟨Ne.symm hc, h⟩⟩

theorem needsDot_iff (u : Rec) : u.needsDot = true ↔ Spec.NeedsDot u := by
  unfold Rec.needsDot Spec.NeedsDot
  cases u.host with
  | some h => simp
  | none =>
    cases u.path with
    | «opaque» s => simp
    | list p =>
      match p with
      | [] => simp
      | [a] => simp
      | a :: b :: t => simp

/-- the path split at the first ";" is put together again, unless only "" follows the ";" -/
theorem splitFirst_join {s : Str} (h : ∀ a, s = a ++ u!";" → c!";" ∈ a) :
    (splitFirst c!";" s).1 ++ (if (splitFirst c!";" s).2 = [] then [] else u!";" ++ (splitFirst c!";" s).2) = s := by
  rcases first_sep c!";" s with hn | ⟨a, b, rfl, ha⟩
  · rw [splitFirst_none hn]; simp
  · rw [splitFirst_some ha]
    by_cases hb : b = []
    · subst hb; exact absurd (h a rfl) ha
    · simp [hb]

theorem unsplit_toParseResult (u : Rec) (hq : u.query ≠ some []) (hf : u.fragment ≠ some [])
    (hs : ∀ a, serializePath u.path = a ++ u!";" → c!";" ∈ a)
    (hb : u.host = none → u.username = [] ∧ u.password = [] ∧ u.port = none) :
    Spec.unsplit u.host.isSome (decide (Spec.NeedsDot u)) (u.toParseResult true) = u.serialize := by
  have hj := splitFirst_join hs
  have hdot : decide (Spec.NeedsDot u) = u.needsDot := by
    rw [Bool.eq_iff_iff, decide_eq_true_iff, needsDot_iff]
  rw [hdot]
  unfold Spec.unsplit Rec.toParseResult Rec.serialize
  simp only [if_true]
  have hauth : (if u.host.isSome = true then u!"//" ++ (u.serializeCredentials ++ u.serializeHost ++ u.serializePort)
      else u.serializeCredentials ++ u.serializeHost ++ u.serializePort) =
      (match u.host with
        | some h => u!"//" ++ u.serializeCredentials ++ hostSerialize h ++ u.serializePort
        | none => []) := by
    unfold Rec.serializeHost
    cases hh : u.host with
    | some h => simp
    | none =>
      obtain ⟨h1, h2, h3⟩ := hb hh
      simp [Rec.serializeCredentials, Rec.includesCredentials, Rec.serializePort, h1, h2, h3]
  have hquery : (if u.query.getD [] = [] then [] else u!"?" ++ u.query.getD []) =
      (match u.query with | some q => c!"?" :: q | none => []) := by
    cases hqq : u.query with
    | none => simp
    | some q => simp; intro h; subst h; exact absurd hqq hq
  have hfrag : (if u.fragment.getD [] = [] then [] else u!"#" ++ u.fragment.getD []) =
      (if (false : Bool) = true then [] else match u.fragment with | some f => c!"#" :: f | none => []) := by
    cases hff : u.fragment with
    | none => simp
    | some f => simp; intro h; subst h; exact absurd hff hf
  rw [hauth, hquery, hfrag]
  generalize (splitFirst c!";" (serializePath u.path)) = pp at hj ⊢
  rw [← hj]
  simp only [List.append_assoc]
  rfl

/-- the length of the path put together, in every case -/
theorem splitFirst_length (s : Str) : (∀ a, s = a ++ u!";" → c!";" ∈ a) ∨
    ((splitFirst c!";" s).1 ++ (if (splitFirst c!";" s).2 = [] then [] else u!";" ++ (splitFirst c!";" s).2)).length < s.length := by
  by_cases h : ∀ a, s = a ++ u!";" → c!";" ∈ a
  · exact .inl h
  · right
    simp only [Classical.not_forall] at h
    obtain ⟨a, rfl, ha⟩ := h
    rw [splitFirst_some ha]
    simp

/-- Every empty part is lost when the components are put together. -/
theorem unsplit_exact (u : Rec) (hb : u.host = none → u.username = [] ∧ u.password = [] ∧ u.port = none)
    (h : Spec.unsplit u.host.isSome (decide (Spec.NeedsDot u)) (u.toParseResult true) = u.serialize) :
    u.query ≠ some [] ∧ u.fragment ≠ some [] ∧ ∀ a, serializePath u.path = a ++ u!";" → c!";" ∈ a := by
  have hdot : decide (Spec.NeedsDot u) = u.needsDot := by
    rw [Bool.eq_iff_iff, decide_eq_true_iff, needsDot_iff]
  rw [hdot] at h
  unfold Spec.unsplit Rec.toParseResult Rec.serialize at h
  simp only [if_true] at h
  have hauth : (if u.host.isSome = true then u!"//" ++ (u.serializeCredentials ++ u.serializeHost ++ u.serializePort)
      else u.serializeCredentials ++ u.serializeHost ++ u.serializePort) =
      (match u.host with
        | some h => u!"//" ++ u.serializeCredentials ++ hostSerialize h ++ u.serializePort
        | none => []) := by
    unfold Rec.serializeHost
    cases hh : u.host with
    | some h => simp
    | none =>
      obtain ⟨h1, h2, h3⟩ := hb hh
      simp [Rec.serializeCredentials, Rec.includesCredentials, Rec.serializePort, h1, h2, h3]
  rw [hauth] at h
  have hquery : (u.query ≠ some [] ∧ (if u.query.getD [] = [] then [] else u!"?" ++ u.query.getD []).length =
      (match u.query with | some q => c!"?" :: q | none => []).length) ∨
      (if u.query.getD [] = [] then [] else u!"?" ++ u.query.getD []).length <
        (match u.query with | some q => c!"?" :: q | none => []).length := by
    cases hqq : u.query with
    | none => simp
    | some q => cases q <;> simp
  have hfrag : (u.fragment ≠ some [] ∧ (if u.fragment.getD [] = [] then [] else u!"#" ++ u.fragment.getD []).length =
      (if (false : Bool) = true then [] else match u.fragment with | some f => c!"#" :: f | none => []).length) ∨
      (if u.fragment.getD [] = [] then [] else u!"#" ++ u.fragment.getD []).length <
        (if (false : Bool) = true then [] else match u.fragment with | some f => c!"#" :: f | none => []).length := by
    cases hff : u.fragment with
    | none => simp
    | some q => cases q <;> simp
  have hpath := splitFirst_length (serializePath u.path)
  have hle : ((splitFirst c!";" (serializePath u.path)).1 ++
      (if (splitFirst c!";" (serializePath u.path)).2 = [] then [] else u!";" ++ (splitFirst c!";" (serializePath u.path)).2)).length ≤
      (serializePath u.path).length := by
    rcases hpath with hp | hp
    · rw [splitFirst_join hp]; exact Nat.le_refl _
    · omega
  have hlen := congrArg List.length h
  simp only [List.length_append] at hlen hquery hfrag hpath hle
  generalize serializePath u.path = pp at hpath hlen hle ⊢
  generalize List.length (match u.host with
    | some h => u!"//" ++ u.serializeCredentials ++ hostSerialize h ++ u.serializePort
    | none => []) = x1 at hlen
  generalize (List.length (match u.query with | some q => c!"?" :: q | none => [])) = x2 at hlen hquery
  generalize (List.length (if (false : Bool) = true then [] else match u.fragment with | some f => c!"#" :: f | none => [])) = x3 at hlen hfrag
  refine ⟨?_, ?_, ?_⟩
  · rcases hquery with hq | hq
    · exact hq.1
    · omega
  · rcases hfrag with hq | hq
    · exact hq.1
    · omega
  · rcases hpath with hq | hq
    · exact hq
    · omega

theorem unsplit_noFragments (u : Rec) (a d : Bool) :
    Spec.unsplit a d (u.toParseResult false) = Spec.unsplit a d (u.toParseResult true) := by
  unfold Rec.toParseResult Spec.unsplit
  simp only [if_true, Bool.false_eq_true, if_false]
  by_cases hq : u.query.getD [] = [] <;> by_cases hp : (splitFirst c!";" (serializePath u.path)).2 = [] <;>
    cases hf : u.fragment with
    | none => simp [hq, hp]
    | some f => cases f <;> simp [hq, hp]

end Urlstd
