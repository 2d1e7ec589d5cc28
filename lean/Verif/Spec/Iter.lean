/-
Specifications for iterators: what a program has seen of an iterator.
-/
import Verif.Iter

namespace Urlstd.Spec

/-- the number of items that iterator `i` has yielded, given the statements and their results -/
def yieldedBy (i : Nat) (t : List (IterCmd × IterOut)) : Nat :=
  t.countP fun p => match p with
    | (.next j, .yielded (some _)) => j == i
    | _ => false

/-- iterator `i` has raised StopIteration -/
def StoppedBy (i : Nat) (t : List (IterCmd × IterOut)) : Prop := (.next i, .yielded none) ∈ t

instance (i : Nat) (t : List (IterCmd × IterOut)) : Decidable (StoppedBy i t) := inferInstanceAs (Decidable (_ ∈ _))

/-- an assignment to `href` or `search` that did not raise -/
def Rebinds (p : IterCmd × IterOut) : Prop := (∃ v, p.1 = .op (.href v) ∨ p.1 = .op (.search v)) ∧ p.2 = .nothing

instance (p : IterCmd × IterOut) : Decidable (Rebinds p) :=
  decidable_of_iff ((match p.1 with | .op (.href _) | .op (.search _) => true | _ => false) = true ∧ p.2 = .nothing) (by
    unfold Rebinds
    refine and_congr_left fun _ => ?_
    constructor
    · intro h
      split at h
      · next v e => exact ⟨v, .inl e⟩
      · next v e => exact ⟨v, .inr e⟩
      · cases h
    · rintro ⟨v, h | h⟩ <;> rw [h])

/-- the statements of a run with their results -/
def trace (env : Env) (s : IterState) (cs : List IterCmd) : List (IterCmd × IterOut) := cs.zip (s.run env cs).1

/-- the operations on the `URL` in a program -/
def opsOf : List IterCmd → List Op
  | [] => []
  | .op p :: cs => p :: opsOf cs
  | _ :: cs => opsOf cs

/-- A bound of a slice, from the Python documentation: "If i or j is negative, the index is relative to the end of sequence
s: len(s) + i or len(s) + j is substituted"; it is then limited to the positions `lo` to `hi`. -/
def bound (len lo hi x : Int) : Int := max lo (min hi (if x < 0 then len + x else x))

/-- Where a slice starts and stops: "If i or j are omitted or None, they become “end” values (which end depends on the sign of
k)"; "When k is positive, i and j are reduced to len(s) if they are greater. When k is negative, i and j are reduced to
len(s) - 1 if they are greater." -/
def sliceEnds (len : Int) (start stop : Option Int) (k : Int) : Int × Int :=
  if 0 < k then (match start with | some x => bound len 0 len x | none => 0,
    match stop with | some x => bound len 0 len x | none => len)
  else (match start with | some x => bound len (-1) (len - 1) x | none => len - 1,
    match stop with | some x => bound len (-1) (len - 1) x | none => -1)

end Urlstd.Spec
