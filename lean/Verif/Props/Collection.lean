/-
C71: the constructors of `URLSearchParams` and its behaviour as a collection.
-/
import Verif.Lemmas.Collection
import Verif.Props.Params

namespace Urlstd.Props
open Spec

/-- C71. A sequence of pairs gives these pairs in order, as scalar-value strings; any element that is not a pair is refused. -/
theorem C71_sequence (init : List (List ParamVal)) (h : ∀ x ∈ init, ∀ v ∈ x, v.IsStr) :
    (∀ pairs : List (ParamVal × ParamVal), init = pairs.map (fun p => [p.1, p.2]) → spOfSeq init = .ok (pairs.map usvPair)) ∧
    ((∃ x ∈ init, x.length ≠ 2) → spOfSeq init = .error .valueError) := by
  refine ⟨fun pairs e => ?_, fun ⟨x, hx, hl⟩ => ?_⟩
  · subst e
    unfold spOfSeq spOfPairs
    rw [if_neg (by simp)]
    rw [List.map_map, List.map_map]
    refine congrArg Except.ok (List.map_congr_left fun p hp => ?_)
    have hp' := h [p.1, p.2] (List.mem_map.2 ⟨p, hp, rfl⟩)
    show (usv p.1.toStr, usv p.2.toStr) = _
    unfold usv usvPair
    rw [usv_core _ (hp' p.1 (by simp)), usv_core _ (hp' p.2 (by simp))]
  · unfold spOfSeq
    rw [if_pos (List.any_eq_true.2 ⟨x, hx, by simpa using hl⟩)]

/-- C71. A dictionary gives each name once, where it first occurs, with its last value; names that become equal by the
conversion to scalar values are one name. -/
theorem C71_dict (init : List (ParamVal × ParamVal)) (h : ∀ p ∈ init, p.1.IsStr ∧ p.2.IsStr) :
    spOfDict init = recordOf (init.map usvPair) := by
  unfold spOfDict
  rw [← recordOf_fold]
  rw [List.foldl_map]
  refine foldl_congr' _ _ init [] fun acc p hp => ?_
  unfold usv usvPair
  rw [usv_core _ (h p hp).1, usv_core _ (h p hp).2]

/-- C71. A string is parsed by the standard's urlencoded parser, without one leading "?". -/
theorem C71_string (s : Str) (hs : IsStr s) : spOfStr s = Spec.ofString s := by
  unfold spOfStr Spec.ofString
  split
  · next r =>
    rw [C08_parse_qsl_is_standard, C01_utf8_encode_is_utf8 _ (fun c hc => hs c (List.mem_cons_of_mem _ hc))]; rfl
  · next hn =>
    rw [C08_parse_qsl_is_standard, C01_utf8_encode_is_utf8 _ hs]
    split
    · next r => exact absurd rfl (hn r)
    · rfl

/-- C71. Another `URLSearchParams` is copied. -/
theorem C71_copy (l : Params) (h : ParamsReached l) : spOfSp l = l := (C54_round_trip l h).2.1

/-- C71. `params[i]` is the i-th item of the iteration, counted from the end for negative `i`, and IndexError outside. -/
theorem C71_index (l : Params) (i : Int) :
    (∀ n : Nat, i = n → n < spLen l → ∃ p, spIndex l i = .ok p ∧ (spIter l)[n]? = some p) ∧
    (∀ n : Nat, i = n - spLen l → n < spLen l → ∃ p, spIndex l i = .ok p ∧ (spIter l)[n]? = some p) ∧
    (i < - spLen l ∨ (spLen l : Int) ≤ i → spIndex l i = .error .indexError) := by
  unfold spIndex pyIndex spLen spIter
  refine ⟨fun n e hn => ⟨l[n], ?_, List.getElem?_eq_getElem hn⟩, fun n e hn => ⟨l[n], ?_, List.getElem?_eq_getElem hn⟩, fun hi => ?_⟩
  · subst e
    have h0 : ¬ (n : Int) < 0 := by omega
    simp only [if_neg h0]
    rw [Int.toNat_natCast, List.getElem?_eq_getElem hn]
  · have h0 : i < 0 := by omega
    have h1 : ¬ (i + (l.length : Int)) < 0 := by omega
    simp only [if_pos h0, if_neg h1]
    rw [show (i + l.length).toNat = n by omega, List.getElem?_eq_getElem hn]
  · by_cases h0 : i < 0
    · have h1 : (i + (l.length : Int)) < 0 := by omega
      simp only [if_pos h0, if_pos h1]
    · simp only [if_neg h0]
      rw [List.getElem?_eq_none (by omega)]

/-- C71. `keys()` and `values()` are the names and the values of the items, in the same order. -/
theorem C71_keys_values (l : Params) : (spKeys l).zip (spValues l) = spIter l ∧ (spKeys l).length = spLen l ∧
    (spValues l).length = spLen l := by
  unfold spKeys spValues spIter spLen
  refine ⟨?_, by simp, by simp⟩
  induction l with
  | nil => rfl
  | cons p l ih => simp [ih]

/-- C71. A name is in `keys()` exactly if `name in params`, for a name without percent escapes. -/
theorem C71_contains (l : Params) (n : Str) (hn : IsScalarStr n) (he : NoEscape n) : spContains l n = true ↔ n ∈ spKeys l := by
  unfold spContains spGet spKeys
  rw [decName_noEscape hn he]
  induction l with
  | nil => simp [spGet.go]
  | cons p l ih =>
    unfold spGet.go
    by_cases e : p.1 = n
    · simp [e]
    · rw [if_neg e, ih]; simp [Ne.symm e]

/-- C71. Objects are equal exactly if they have the same items, and exactly if they have the same string form. -/
theorem C71_equality (l l' : Params) (h : ParamsReached l) (h' : ParamsReached l') :
    (spEq l l' = true ↔ spIter l = spIter l') ∧ (spEq l l' = true ↔ spToStr l = spToStr l') := by
  have e : spEq l l' = true ↔ l = l' := by simp [spEq]
  refine ⟨e, e.trans ⟨fun e => by rw [e], fun e => ?_⟩⟩
  rw [← (C54_round_trip l h).1, e, (C54_round_trip l' h').1]

/-- C71. `params + s` begins with the string form of `params`, from which they can be read back. -/
theorem C71_add (l : Params) (h : ParamsReached l) (s : Str) : ∃ t, spAddStr l s = t ++ s ∧ spOfStr t = l :=
  ⟨spToStr l, rfl, (C54_round_trip l h).1⟩

example : spOfSeq [[.str u!"a", .num u!"1"], [.str [0xD83C, 0xDF08], .str [0xD83C]]] =
    .ok [(u!"a", u!"1"), (u!"🌈", [0xFFFD])] := by decide +kernel
example : spOfSeq [[.str u!"a", .num u!"1"], [.str u!"b"]] = .error .valueError := by decide +kernel
example : spOfDict [(.str [0xD83C], .str u!"1"), (.str u!"b", .str u!"2"), (.str [0xDC00], .str u!"3")] =
    [([0xFFFD], u!"3"), (u!"b", u!"2")] := by decide +kernel
example : spIndex exParams (-1) = .ok (u!"é", u!"🌈") ∧ spIndex exParams 5 = .error .indexError := by decide +kernel
example : spContains exParams u!"é" = true := by decide +kernel
example : NoEscape u!"é" := by
  intro pre a b post h
  have := congrArg List.length h
  simp at this
  omega

end Urlstd.Props
