/-
Properties C49 to C54: `URLSearchParams`.
-/
import Verif.Lemmas.Params
import Verif.Props.Codec
import Verif.Props.History

set_option linter.unusedSimpArgs false
set_option linter.unusedVariables false

namespace Urlstd.Props

open Spec (IsStr IsScalarStr decoded NoEscape ParamsReached)

/-- "a=1&b=2&%61=3&%2541=4&é=%F0%9F%8C%88" -/
def exParams : Params := [(u!"a", u!"1"), (u!"b", u!"2"), (u!"a", u!"3"), (u!"%41", u!"4"), (u!"é", u!"🌈")]

theorem exParams_reached : ParamsReached exParams := by
  have : exParams = spOfStr u!"?a=1&b=2&%61=3&%2541=4&é=%F0%9F%8C%88" := by decide +kernel
  rw [this]; exact .ofStr (by decide)

/-! ### C49 -/

/-- C49, no pair of that name: `set` puts the pair at the end. -/
theorem C49_set_new (l : Params) (n : Str) (v : ParamVal) (hn : IsStr n) (hv : v.IsStr)
    (h : ∀ p ∈ l, p.1 ≠ decoded n) : spSet l n v = l ++ [(decoded n, decoded v.toStr)] := by
  rw [← decName_eq hn] at h ⊢
  rw [← decName_eq hv]
  exact spSet_none v h

/-- C49, first pair of that name behind `pre`: it gets the value, everything else of `pre` and `post`
stays in place except the other pairs of that name, which are removed. -/
theorem C49_set_replaces (pre post : Params) (w : Str) (n : Str) (v : ParamVal) (hn : IsStr n) (hv : v.IsStr)
    (h : ∀ p ∈ pre, p.1 ≠ decoded n) :
    spSet (pre ++ (decoded n, w) :: post) n v =
      pre ++ (decoded n, decoded v.toStr) :: post.filter (fun p => p.1 ≠ decoded n) := by
  rw [← decName_eq hn] at h ⊢
  rw [← decName_eq hv]
  exact spSet_some w post v h

/-- C49 for all lists: afterwards exactly one pair has the name, it has the value, and the other pairs
are unchanged and in order. -/
theorem C49_set (l : Params) (n : Str) (v : ParamVal) (hn : IsStr n) (hv : v.IsStr) :
    (spSet l n v).filter (fun p => p.1 = decoded n) = [(decoded n, decoded v.toStr)] ∧
    (spSet l n v).filter (fun p => p.1 ≠ decoded n) = l.filter (fun p => p.1 ≠ decoded n) := by
  rcases split_first (decoded n) l with h | ⟨pre, w, post, rfl, h⟩
  · rw [C49_set_new l n v hn hv h, List.filter_append, List.filter_append]
    have h1 : l.filter (fun p => decide (p.1 = decoded n)) = [] := by
      rw [List.filter_eq_nil_iff]; intro p hp; simpa using h p hp
    rw [h1]; simp
  · rw [C49_set_replaces pre post w n v hn hv h]
    have h1 : pre.filter (fun p => decide (p.1 = decoded n)) = [] := by
      rw [List.filter_eq_nil_iff]; intro p hp; simpa using h p hp
    have h2 : (post.filter (fun p => decide (p.1 ≠ decoded n))).filter (fun p => decide (p.1 = decoded n)) = [] := by
      rw [List.filter_eq_nil_iff]; intro p hp; simpa using (List.mem_filter.1 hp).2
    constructor
    · rw [List.filter_append, h1, List.filter_cons, h2]; simp
    · rw [List.filter_append, List.filter_append, List.filter_cons, List.filter_cons, List.filter_filter]
      simp

example : spSet exParams u!"%61" (.num u!"7") = [(u!"a", u!"7"), (u!"b", u!"2"), (u!"%41", u!"4"), (u!"é", u!"🌈")] := by
  decide +kernel
example : spSet exParams u!"c" (.str u!"%41") = exParams ++ [(u!"c", u!"A")] := by decide +kernel
example : decoded u!"%61" = u!"a" ∧ exParams = [] ++ (decoded u!"%61", u!"1") :: exParams.drop 1 := by decide +kernel

/-! ### C50 -/

/-- C50. `delete(n)` removes exactly the pairs named `n`. -/
theorem C50_delete_name (l : Params) (n : Str) (hn : IsStr n) :
    spDelete l n none = l.filter (fun p => p.1 ≠ decoded n) := by
  rw [spDelete_eq, decName_eq hn]
  apply List.filter_congr
  intro p _
  by_cases h : p.1 = decoded n <;> simp [spMatch, h]

/-- C50. `delete(n, v)` removes exactly the pairs named `n` whose value is the string `v`. -/
theorem C50_delete_value (l : Params) (n v : Str) (hn : IsStr n) :
    spDelete l n (some (.str v)) = l.filter (fun p => ¬ (p.1 = decoded n ∧ p.2 = v)) := by
  rw [spDelete_eq, decName_eq hn]
  apply List.filter_congr
  intro p _
  by_cases h : p.1 = decoded n <;> by_cases h' : p.2 = v <;> simp [spMatch, ParamVal.eqStr, h, h']

/-- C50. A value that is a number is equal to no string: nothing is removed. -/
theorem C50_delete_number (l : Params) (n r : Str) : spDelete l n (some (.num r)) = l := by
  rw [spDelete_eq, List.filter_eq_self]
  intro p _
  simp [spMatch, ParamVal.eqStr]

example : spDelete exParams u!"a" none = [(u!"b", u!"2"), (u!"%41", u!"4"), (u!"é", u!"🌈")] := by decide +kernel
example : spDelete exParams u!"a" (some (.str u!"3")) =
    [(u!"a", u!"1"), (u!"b", u!"2"), (u!"%41", u!"4"), (u!"é", u!"🌈")] := by decide +kernel

/-! ### C51 -/

/-- C51. `get_all` returns the values of the pairs named `n`, in order. -/
theorem C51_get_all (l : Params) (n : Str) (hn : IsStr n) :
    spGetAll l n = (l.filter (fun p => p.1 = decoded n)).map Prod.snd := by
  unfold spGetAll
  rw [decName_eq hn]
  congr 1
  apply List.filter_congr
  intro p _
  by_cases h : p.1 = decoded n <;> simp [h]

/-- C51. `get` returns the first value of `get_all`, or None. -/
theorem C51_get (l : Params) (n : Str) : spGet l n = (spGetAll l n).head? := by
  unfold spGet spGetAll
  exact spGet_go_eq _ _

/-- C51. `has(n)` and `n in params` are true exactly when `get(n)` is not None. -/
theorem C51_has_contains (l : Params) (n : Str) :
    (spHas l n none = true ↔ spGet l n ≠ none) ∧ (spContains l n = true ↔ spGet l n ≠ none) := by
  constructor
  · unfold spHas spGet
    rw [spHas_go_iff, spGet_go_eq]
    simp [spMatch, List.head?_eq_none_iff, List.filter_eq_nil_iff]
  · unfold spContains
    rw [Option.isSome_iff_ne_none]

/-- C51. `append` adds the pair at the end. -/
theorem C51_append (l : Params) (n : Str) (v : ParamVal) (hn : IsStr n) (hv : v.IsStr) :
    spAppend l n v = l ++ [(decoded n, decoded v.toStr)] ∧
      spGetAll (spAppend l n v) n = spGetAll l n ++ [decoded v.toStr] := by
  have e : spAppend l n v = l ++ [(decoded n, decoded v.toStr)] := by
    unfold spAppend; rw [decName_eq hn, decName_eq hv]
  refine ⟨e, ?_⟩
  rw [e, C51_get_all _ n hn, C51_get_all _ n hn, List.filter_append, List.map_append]
  simp

/-- C51. Names other than `n` are not affected by `append(n, v)`. -/
theorem C51_append_other (l : Params) (n m : Str) (v : ParamVal) (hn : IsStr n) (hm : IsStr m) (hv : v.IsStr)
    (h : decoded m ≠ decoded n) : spGetAll (spAppend l n v) m = spGetAll l m := by
  rw [(C51_append l n v hn hv).1, C51_get_all _ m hm, C51_get_all _ m hm, List.filter_append, List.map_append]
  simp [h.symm]

example : spGetAll exParams u!"a" = [u!"1", u!"3"] ∧ spGet exParams u!"a" = some u!"1" ∧ spHas exParams u!"a" none = true ∧
    spGet exParams u!"z" = none ∧ spContains exParams u!"z" = false := by decide +kernel

/-! ### C52 -/

/-- C52 is false: a stored name with an escape is not found (`URLSearchParams("%2541=4")` holds the name
"%41", which `has` decodes to "A"), and a value with an escape is not found after `append`. -/
theorem C52_false :
    (ParamsReached exParams ∧ (u!"%41", u!"4") ∈ exParams ∧ spHas exParams u!"%41" none = false ∧
      spGetAll exParams u!"%41" = []) ∧
    spHas (spAppend [] u!"a" (.str u!"%41")) u!"a" (some (.str u!"%41")) = false :=
  ⟨⟨exParams_reached, by decide +kernel⟩, by decide +kernel⟩

/-- C52, exactly: `has(n)` is true if and only if there is a pair whose name is the decoding of `n`, and
`has(n, v)` if and only if such a pair has the value `v`. -/
theorem C52_has_iff (l : Params) (n v : Str) (hn : IsStr n) :
    (spHas l n none = true ↔ ∃ w, (decoded n, w) ∈ l) ∧
    (spHas l n (some (.str v)) = true ↔ (decoded n, v) ∈ l) := by
  unfold spHas
  rw [spHas_go_iff, spHas_go_iff, decName_eq hn]
  simp only [spMatch, ParamVal.eqStr, Bool.and_true, beq_iff_eq, Bool.and_eq_true]
  constructor
  · constructor
    · rintro ⟨p, hp, h⟩; exact ⟨p.2, h ▸ hp⟩
    · rintro ⟨w, h⟩; exact ⟨_, h, rfl⟩
  · constructor
    · rintro ⟨p, hp, h1, h2⟩; rw [← h1, ← h2]; exact hp
    · intro h; exact ⟨_, h, rfl, rfl⟩

/-- C52 (partial: names without escapes). A stored pair is found under its name and value. -/
theorem C52_stored_pair_partial (l : Params) (hl : ParamsReached l) (n v : Str) (h : (n, v) ∈ l) (hn : NoEscape n) :
    spHas l n none = true ∧ spHas l n (some (.str v)) = true ∧ spContains l n = true ∧ v ∈ spGetAll l n := by
  have hs := (hl.scalar _ h).1
  have e := decoded_plain hs hn
  have h1 := (C52_has_iff l n v hs.isStr).1.2 ⟨v, by rw [e]; exact h⟩
  refine ⟨h1, (C52_has_iff l n v hs.isStr).2.2 (by rw [e]; exact h), ?_, ?_⟩
  · exact (C51_has_contains l n).2.2 ((C51_has_contains l n).1.1 h1)
  · rw [C51_get_all l n hs.isStr, List.mem_map]
    exact ⟨(n, v), List.mem_filter.2 ⟨h, by simp [e]⟩, rfl⟩

/-- C52 (partial: values without escapes and without surrogates). After `append(n, v)`, `has(n, v)`. -/
theorem C52_after_append_partial (l : Params) (n v : Str) (hn : IsStr n) (hv : IsScalarStr v) (he : NoEscape v) :
    spHas (spAppend l n (.str v)) n (some (.str v)) = true := by
  rw [(C52_has_iff _ n v hn).2, (C51_append l n (.str v) hn hv.isStr).1]
  simp [ParamVal.toStr, decoded_plain hv he]

/-- C52. After `append(n, v)` a value is found under `n`, whatever the name and value. -/
theorem C52_append_has_name (l : Params) (n : Str) (v : ParamVal) (hn : IsStr n) (hv : v.IsStr) :
    spHas (spAppend l n v) n none = true := by
  rw [(C52_has_iff _ n [] hn).1, (C51_append l n v hn hv).1]
  exact ⟨_, by simp; exact .inr rfl⟩

theorem noEscape_of_no_percent {s : Str} (h : c!"%" ∉ s) : NoEscape s := fun pre a b post e => (h (by simp [e])).elim

example : (u!"é", u!"🌈") ∈ exParams ∧ NoEscape u!"é" := ⟨by decide, noEscape_of_no_percent (by decide)⟩
example : NoEscape u!"100% é" ∧ decoded u!"100% é" = u!"100% é" := by
  have h : NoEscape u!"100% é" := by
    intro pre a b post e
    have := congrArg List.length e
    simp at this
    match pre, e with
    | [], e => cases e
    | [_], e => cases e
    | [_, _], e => cases e
    | [_, _, _], e => cases e; decide
    | _ :: _ :: _ :: _ :: _, e => simp at this; omega
  exact ⟨h, decoded_plain (by unfold IsScalarStr; decide) h⟩

/-! ### C53 -/

/-- C53. `sort` permutes the pairs. -/
theorem C53_sort_perm (l : Params) : (spSort l).Perm l := spSort_perm l

/-- C53. After `sort` the names are in non-decreasing order of their UTF-16 code units. -/
theorem C53_sort_sorted (l : Params) :
    (spSort l).Pairwise fun x y => Spec.UnitsLE (Spec.utf16 x.1) (Spec.utf16 y.1) := spSort_sorted l

/-- C53. Pairs with equal names (more generally, with equal code units) keep their relative order. -/
theorem C53_sort_stable (l : Params) :
    (∀ k, (spSort l).filter (fun p => Spec.utf16 p.1 == k) = l.filter (fun p => Spec.utf16 p.1 == k)) ∧
    (∀ n, (spSort l).filter (fun p => p.1 == n) = l.filter (fun p => p.1 == n)) := by
  refine ⟨fun k => spSort_filter k l, fun n => ?_⟩
  have h := congrArg (List.filter fun p => p.1 == n) (spSort_filter (Spec.utf16 n) l)
  rw [List.filter_filter, List.filter_filter] at h
  have e : (fun p : Str × Str => p.1 == n && Spec.utf16 p.1 == Spec.utf16 n) = fun p => p.1 == n := by
    funext p
    by_cases hp : p.1 = n <;> simp [hp]
  rwa [e] at h

/-- C53. These properties determine the result of a stable sort. -/
theorem C53_sort_unique (l l' : Params)
    (hs : l'.Pairwise fun x y => Spec.UnitsLE (Spec.utf16 x.1) (Spec.utf16 y.1))
    (hf : ∀ k, l'.filter (fun p => Spec.utf16 p.1 == k) = l.filter (fun p => Spec.utf16 p.1 == k)) : l' = spSort l :=
  sorted_unique hs (spSort_sorted l) fun k => (hf k).trans (spSort_filter k l).symm

/-- C53. The order of code units is not the order of code points. -/
example : spSort [(u!"ﬃ", u!"1"), (u!"🌈", u!"2"), (u!"a", u!"2"), (u!"ﬃ", u!"0"), (u!"a", u!"1")] =
    [(u!"a", u!"2"), (u!"a", u!"1"), (u!"🌈", u!"2"), (u!"ﬃ", u!"1"), (u!"ﬃ", u!"0")] := by decide +kernel

/-! ### C54 -/

/-- C54. `URLSearchParams(str(p)) == p`, `URLSearchParams(p) == p`, `URLSearchParams("?" + str(p)) == p`. -/
theorem C54_round_trip (l : Params) (h : ParamsReached l) :
    spOfStr (spToStr l) = l ∧ spOfSp l = l ∧ spOfStr (u!"?" ++ spToStr l) = l := by
  have hr : parseQsl (utf8Encode (urlencode l)) = l := C07_parse_qsl_urlencode_scalar l h.scalar
  have h1 : spOfStr (spToStr l) = l := by
    unfold spOfStr spToStr
    split
    · next t e => exact absurd e (urlencode_ne_question h.scalar t)
    · exact hr
  exact ⟨h1, h1, hr⟩

example : spToStr exParams = u!"a=1&b=2&a=3&%2541=4&%C3%A9=%F0%9F%8C%88" := by decide +kernel
example : spOfSp exParams = exParams := (C54_round_trip _ exParams_reached).2.1
example : ParamsReached (applyOps exEnv exStart exHistory).params :=
  .ofUrl (reached_ops exStart_reached exHistory_str)

end Urlstd.Props
