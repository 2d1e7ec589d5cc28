/-
Lemmas for C71: assignments to a dictionary, one after another.
-/
import Verif.Spec.Collection
import Verif.Lemmas.Params
import Verif.Lemmas.Utf

namespace Urlstd
open Spec

theorem foldl_congr' {α β : Type} (f g : β → α → β) (l : List α) (b : β) (h : ∀ acc, ∀ a ∈ l, f acc a = g acc a) :
    l.foldl f b = l.foldl g b := by
  induction l generalizing b with
  | nil => rfl
  | cons a l ih =>
    rw [List.foldl_cons, List.foldl_cons, h b a (by simp)]
    exact ih _ fun acc x hx => h acc x (by simp [hx])

theorem nodup_eraseDups' : ∀ l : List Str, l.eraseDups.Nodup
  | [] => List.nodup_nil
  | a :: as => by
    rw [List.eraseDups_cons]
    have : (as.filter fun b => !b == a).length < as.length + 1 := Nat.lt_succ_of_le (List.length_filter_le _ _)
    refine List.nodup_cons.2 ⟨fun h => ?_, nodup_eraseDups' _⟩
    have := List.mem_filter.1 (List.mem_eraseDups.1 h)
    simp at this
  termination_by l => l.length

theorem dictSet_map (k v : Str) (f : Str → Str) (K : List Str) (hK : K.Nodup) :
    dictSet k v (K.map fun x => (x, f x)) =
      if k ∈ K then K.map (fun x => (x, if x = k then v else f x)) else K.map (fun x => (x, f x)) ++ [(k, v)] := by
  induction K with
  | nil => rfl
  | cons x K ih =>
    obtain ⟨hx, hK⟩ := List.nodup_cons.1 hK
    rw [List.map_cons]
    unfold dictSet
    dsimp only
    by_cases e : x = k
    · subst e
      rw [if_pos rfl, if_pos (by simp), List.map_cons, if_pos rfl]
      congr 1
      refine List.map_congr_left fun y hy => ?_
      rw [if_neg (fun e : y = x => hx (e ▸ hy))]
    · rw [if_neg e, ih hK]
      by_cases hk : k ∈ K
      · rw [if_pos hk, if_pos (by simp [hk]), List.map_cons, if_neg e]
      · rw [if_neg hk, if_neg (by simp [hk, Ne.symm e])]; rfl

theorem recordOf_push (l : List (Str × Str)) (k v : Str) : recordOf (l ++ [(k, v)]) = dictSet k v (recordOf l) := by
  unfold recordOf
  rw [dictSet_map _ _ _ _ (nodup_eraseDups' _)]
  rw [List.map_append, List.eraseDups_append]
  by_cases hk : k ∈ l.map Prod.fst
  · rw [if_pos (List.mem_eraseDups.2 hk)]
    have : List.removeAll (List.map Prod.fst [(k, v)]) (l.map Prod.fst) = [] := by
      simp [List.removeAll] at hk ⊢
      exact hk
    rw [this, List.eraseDups_nil, List.append_nil]
    refine List.map_congr_left fun x hx => ?_
    by_cases e : x = k
    · subst e; simp
    · simp [e, Ne.symm e]
  · rw [if_neg (fun h => hk (List.mem_eraseDups.1 h))]
    have : List.removeAll (List.map Prod.fst [(k, v)]) (l.map Prod.fst) = [k] := by
      simp [List.removeAll] at hk ⊢
      exact hk
    rw [this]
    rw [show [k].eraseDups = [k] by rfl, List.map_append]
    congr 1
    · refine List.map_congr_left fun x hx => ?_
      have : x ≠ k := fun e => hk (e ▸ List.mem_eraseDups.1 hx)
      simp [Ne.symm this]
    · have : l.filter (fun p => p.1 == k) = [] := by
        rw [List.filter_eq_nil_iff]
        intro p hp e
        exact hk (List.mem_map.2 ⟨p, hp, by simpa using e⟩)
      simp [this]

theorem recordOf_fold (l : List (Str × Str)) : l.foldl (fun acc p => dictSet p.1 p.2 acc) [] = recordOf l := by
  rw [← List.reverse_reverse l]
  induction l.reverse with
  | nil => rfl
  | cons p l ih =>
    rw [List.reverse_cons, List.foldl_append, ih]
    exact (recordOf_push _ _ _).symm

theorem decName_noEscape {n : Str} (hn : IsScalarStr n) (he : NoEscape n) : decName n = n := by
  rw [decName_eq hn.isStr, decoded_plain hn he]

end Urlstd
