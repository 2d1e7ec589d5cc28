/-
Resolving one reference against the result of another (C106).
-/
import Verif.Lemmas.Place4
import Verif.Props.Denote

namespace Urlstd

open Spec (IsStr Denotes FileText Relative tailText TailOK Slash NoSlash HasScheme segmentsOf follow parent segment doubleDot singleDot DriveFirst)

/-- the path after all segments of a directory -/
def enter (file : Bool) (out S : List Str) : List Str :=
  S.foldl (fun out s => if doubleDot s then parent file out else if singleDot s then out else out ++ [segment file out s]) out

theorem follow_append (file : Bool) (S : List Str) : ∀ (out T : List Str), T ≠ [] →
    follow file out (S ++ T) = follow file (enter file out S) T := by
  induction S with
  | nil => intro out T _; rfl
  | cons s S ih =>
    intro out T hT
    have : ∃ t ts, S ++ T = t :: ts := by
      cases S with
      | nil => cases T with
        | nil => exact absurd rfl hT
        | cons t ts => exact ⟨t, ts, rfl⟩
      | cons t ts => exact ⟨t, ts ++ T, rfl⟩
    obtain ⟨t, ts, e⟩ := this
    show follow file out (s :: (S ++ T)) = _
    rw [e]
    conv => lhs; unfold follow
    rw [← e, ih _ T hT]
    rfl

theorem segmentsOf_ne (sp : Bool) (t : Str) : segmentsOf sp t ≠ [] := by
  cases t with
  | nil => simp [segmentsOf]
  | cons c cs =>
    unfold segmentsOf
    split
    · simp
    · split <;> simp

theorem segmentsOf_cons (sp : Bool) (c : Nat) (cs : Str) :
    segmentsOf sp (c :: cs) = if Slash sp c then [] :: segmentsOf sp cs
      else match segmentsOf sp cs with
        | [] => [[c]]
        | s :: ss => (c :: s) :: ss := rfl

theorem segmentsOf_dir {sp : Bool} {c : Nat} (hc : Slash sp c) (d t : Str) :
    segmentsOf sp (d ++ c :: t) = segmentsOf sp d ++ segmentsOf sp t := by
  induction d with
  | nil =>
    show segmentsOf sp (c :: t) = _
    rw [segmentsOf_cons, if_pos hc]
    rfl
  | cons a d ih =>
    show segmentsOf sp (a :: (d ++ c :: t)) = _
    rw [segmentsOf_cons, ih, segmentsOf_cons sp a d]
    split
    · rfl
    · cases hd : segmentsOf sp d with
      | nil => exact absurd hd (segmentsOf_ne sp d)
      | cons s ss => rfl

theorem segmentsOf_one {sp : Bool} {x : Str} (h : ∀ c ∈ x, ¬ Slash sp c) : segmentsOf sp x = [x] := by
  induction x with
  | nil => rfl
  | cons c x ih =>
    rw [segmentsOf_cons, if_neg (h c (by simp)), ih fun a ha => h a (by simp [ha])]

/-- nothing, or a text that ends with a slash -/
def DirText (sp : Bool) (d : Str) : Prop := d = [] ∨ ∃ d0 c, d = d0 ++ [c] ∧ Slash sp c

theorem DirText.segments {sp : Bool} {d : Str} (h : DirText sp d) : ∃ S, ∀ t, segmentsOf sp (d ++ t) = S ++ segmentsOf sp t := by
  rcases h with rfl | ⟨d0, c, rfl, hc⟩
  · exact ⟨[], fun t => rfl⟩
  · refine ⟨segmentsOf sp d0, fun t => ?_⟩
    rw [List.append_assoc]
    exact segmentsOf_dir hc d0 t

/-- a scheme lies before the first slash -/
theorem DirText.noScheme {sp : Bool} {d : Str} (h : DirText sp d) {x y : Str} (h1 : ¬ HasScheme (d ++ x)) (h2 : d = [] → ¬ HasScheme y) :
    ¬ HasScheme (d ++ y) := by
  rcases h with rfl | ⟨d0, c, rfl, hc⟩
  · exact h2 rfl
  · rintro ⟨sc, rest, hsc, e⟩
    apply h1
    have hmem : ∀ a ∈ sc ++ u!":", a ≠ c := by
      rintro a ha rfl
      rcases List.mem_append.1 ha with ha | ha
      · obtain ⟨l, ls, rfl, k1, k2⟩ := hsc
        have : Spec.Letter a ∨ Spec.Digit a ∨ a = c!"+" ∨ a = c!"-" ∨ a = c!"." := by
          rcases List.mem_cons.1 ha with rfl | ha
          · exact .inl k1
          · exact k2 a ha
        rcases hc with rfl | ⟨_, rfl⟩ <;> exact absurd this (by decide)
      · have : a = 58 := by simpa using ha
        subst this
        rcases hc with hc | ⟨_, hc⟩ <;> exact absurd hc (by decide)
    rcases List.append_eq_append_iff.1 e with ⟨w, e1, e2⟩ | ⟨w, e1, e2⟩
    · exfalso
      have : c ∈ sc ++ u!":" := by rw [e1]; simp
      exact hmem c this rfl
    · exact ⟨sc, w ++ x, hsc, by rw [e1]; simp⟩

/-- a scheme lies before the query and the fragment -/
theorem tail_scheme {r : Str} {q f : Option Str} (h : ¬ HasScheme r) : ¬ HasScheme (tailText r q f) := by
  rintro ⟨sc, rest, hsc, e⟩
  apply h
  have e' : r ++ ((q.elim [] fun x => u!"?" ++ x) ++ (f.elim [] fun x => u!"#" ++ x)) = (sc ++ u!":") ++ rest := by
    rw [← e]; unfold tailText; simp
  rcases List.append_eq_append_iff.1 e' with ⟨w, e1, e2⟩ | ⟨w, e1, e2⟩
  · cases w with
    | nil => exact ⟨sc, [], hsc, by simpa using e1.symm⟩
    | cons c w =>
      exfalso
      have hc : c = c!"?" ∨ c = c!"#" := by
        cases q with
        | some x => simp at e2; exact .inl e2.1.symm
        | none =>
          cases f with
          | some x => simp at e2; exact .inr e2.1.symm
          | none => simp at e2
      have hm : c ∈ sc ++ u!":" := by rw [e1]; simp
      rcases List.mem_append.1 hm with ha | ha
      · obtain ⟨l, ls, rfl, k1, k2⟩ := hsc
        have : Spec.Letter c ∨ Spec.Digit c ∨ c = c!"+" ∨ c = c!"-" ∨ c = c!"." := by
          rcases List.mem_cons.1 ha with rfl | ha
          · exact .inl k1
          · exact k2 c ha
        rcases hc with rfl | rfl <;> exact absurd this (by decide)
      · have : c = 58 := by simpa using ha
        subst this
        rcases hc with hc | hc <;> exact absurd hc (by decide)
  · exact ⟨sc, w, hsc, e1⟩

theorem noScheme_nil : ¬ HasScheme [] := by
  rintro ⟨sc, rest, _, e⟩
  simp at e

theorem dir_noSlash {sp : Bool} {d x y : Str} (hd : d ≠ []) (h : NoSlash sp (d ++ x)) : NoSlash sp (d ++ y) := by
  cases d with
  | nil => exact absurd rfl hd
  | cons c d => exact h

theorem parent_snoc {file : Bool} {l : List Str} {y : Str} (h : file = true → l = [] → Spec.isNormDrive y = false) :
    parent file (l ++ [y]) = l := by
  unfold parent
  rw [if_neg, List.dropLast_concat]
  rintro ⟨hf, d, _, e, hn⟩
  have e' : l ++ [y] = [] ++ [d] := e
  obtain ⟨e1, e2⟩ := List.append_inj' e' rfl
  have : y = d := by simpa using e2
  rw [← this, h hf e1] at hn
  cases hn

theorem pathEncode_drive {x : Str} (hs : IsStr x) (h : Spec.isNormDrive (Spec.Rfc.pathEncode x) = true) : Spec.isDrive x = true := by
  have hd : Spec.isDrive (Spec.Rfc.pathEncode x) = true := by
    generalize Spec.Rfc.pathEncode x = y at h
    unfold Spec.isNormDrive at h
    split at h
    · unfold Spec.isDrive
      simp only [Bool.and_eq_true] at h
      simp [h.1, h.2]
    · cases h
  rw [← pathEncode_eq hs, isDrive_eq, encoded_drive hs, ← isDrive_eq] at hd
  exact hd

end Urlstd
