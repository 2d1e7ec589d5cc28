/-
C39: parsing never modifies the base, and the result shares no list with it.

The specification is in terms of list objects: `h` is the heap before the call, `bp` the value of
the attribute `path` of the base.
-/
import Verif.Lemmas.Heap
import Verif.Spec.Example

namespace Urlstd.Props

/-- C39: whatever the input, the encoding and the outcome (also when an exception is raised), after
parsing against `base` on a heap
* the parser returned or raised, and the record and its path are, what the value-based model says,
* every list that existed before the call - so the base's path - is as it was, and
* after any later statements on the result's path it still is. -/
theorem C39_base_unchanged (env : Env) (s : Str) (base : Rec) (e : Encoding) (h : Heap) (bp : PathRef)
    (hbp : ∀ a, bp = .obj a → a < h.length) (hb : h.read bp = base.path)
    (later : List PathStmt) (hl : PathStmt.share ∉ later) :
    let o := heapParse env s (some base) e h bp
    let o' := execAll bp later (o.heap, o.ref)
    (o.res, o.url) = ((basicParse env s (some base) e).res, (basicParse env s (some base) e).url) ∧
      o.heap.read o.ref = o.url.path ∧
      o.heap.take h.length = h ∧ o.heap.read bp = base.path ∧
      o'.1.take h.length = h ∧ o'.1.read bp = base.path := by
  have hold : bp.Old h.length := by
    cases bp with
    | str t => trivial
    | obj a => exact hbp a rfl
  obtain ⟨h1, h2, h3, h4, h5⟩ := heapParse_sound env s (some base) e h bp hold (fun r hr => by cases hr; exact hb)
  have hla : later.all (!·.isShare) = true := by
    rw [List.all_eq_true]
    intro p hp
    cases p <;> first | rfl | exact absurd hp hl
  obtain ⟨_, k2, _, _⟩ := execAll_sound h.length bp hold later _ _ hla h4 h5
  have k3 := k2.trans h3
  refine ⟨?_, h2, h3, ?_, k3, ?_⟩
  · rw [h1]; exact (basicParse_eval env s (some base) e none none).symm
  · exact (Heap.read_old hold (by rw [h3, List.take_length])).trans hb
  · exact (Heap.read_old hold (by rw [k3, List.take_length])).trans hb

/-- C39, the other direction: later statements on the base's path (or on that of any record that
existed before the call) do not change the result's path. -/
theorem C39_result_independent (env : Env) (s : Str) (base : Rec) (e : Encoding) (h : Heap) (bp : PathRef)
    (hbp : ∀ a, bp = .obj a → a < h.length) (hb : h.read bp = base.path)
    (a : Nat) (ha : a < h.length) (l : List Str) :
    let o := heapParse env s (some base) e h bp
    Heap.read (o.heap.set a l) o.ref = o.url.path := by
  have hold : bp.Old h.length := by
    cases bp with
    | str t => trivial
    | obj a => exact hbp a rfl
  obtain ⟨h1, h2, h3, h4, h5⟩ := heapParse_sound env s (some base) e h bp hold (fun r hr => by cases hr; exact hb)
  dsimp only
  rw [← h2]
  cases hr : (heapParse env s (some base) e h bp).ref with
  | str t => rfl
  | obj c =>
    rw [hr] at h5
    have h5' : h.length ≤ c := h5.1
    show Path.list _ = Path.list _
    rw [List.getD_eq_getElem?_getD, List.getD_eq_getElem?_getD, List.getElem?_set_ne (by omega)]

/-- "../x" against "http://h/a/b/c": the base's list is object 0; the result is another object. -/
example :
    let base : Rec := { scheme := u!"http", host := some (.str u!"h"), path := .list [u!"a", u!"b", u!"c"] }
    let o := heapParse exEnv u!"../x" (some base) .utf8 [[u!"a", u!"b", u!"c"]] (.obj 0)
    o.heap = [[u!"a", u!"b", u!"c"], [], [u!"a", u!"x"]] ∧ o.ref = .obj 2 := by decide

end Urlstd.Props
