/-
The statements of `Verif/Heap.lean` have the effect on the path that the parser model has, and
executed on the heap they write to no list that existed before.
-/
import Verif.Heap

set_option linter.unusedSimpArgs false
set_option linter.unusedVariables false

namespace Urlstd

/-- the effect of a statement on the path as a value -/
def PathStmt.apply (b : Path) (p : PathStmt) (q : Path) : Path :=
  match p, q with
  | .newList, _ => .list []
  | .newStr, _ => .opaque []
  | .copy, _ => b
  | .share, _ => b
  | .append _, .opaque t => .opaque t
  | .append x, .list l => .list (l ++ [x])
  | .delLast, .opaque t => .opaque t
  | .delLast, .list l => .list l.dropLast
  | .extend x, q => q.addText x

def applyAll (b : Path) (l : List PathStmt) (q : Path) : Path := l.foldl (fun q p => p.apply b q) q

theorem applyAll_append (b : Path) (l m : List PathStmt) (q : Path) :
    applyAll b (l ++ m) q = applyAll b m (applyAll b l q) := List.foldl_append

theorem applyAll_cons (b : Path) (p : PathStmt) (l : List PathStmt) (q : Path) :
    applyAll b (p :: l) q = applyAll b l (p.apply b q) := rfl

theorem shortenStmts_apply (b : Path) (scheme : Str) (p : List Str) :
    applyAll b (shortenStmts scheme p) (.list p) = .list (shortenPath scheme p) := by
  match p with
  | [] => rfl
  | [p] => unfold shortenStmts shortenPath; dsimp only; split <;> rfl
  | _ :: _ :: _ => rfl

theorem segmentStmts_apply (b : Path) (scheme : Str) (p : List Str) (buffer : Str) (slash : Bool) :
    applyAll b (segmentStmts scheme p buffer slash) (.list p) = .list (addSegment scheme p buffer slash) := by
  unfold segmentStmts addSegment
  dsimp only
  generalize utf8PercentEncode buffer safePath = w
  split
  · split
    · exact shortenStmts_apply b scheme p
    · rw [applyAll_append, shortenStmts_apply]; rfl
  · split
    · split <;> rfl
    · split <;> rfl

theorem piecesStmts_apply (b : Path) (scheme : Str) (p : List Str) (pieces : List Str) :
    applyAll b (piecesStmts scheme p pieces) (.list p) = .list (addPieces scheme p pieces) := by
  fun_induction addPieces scheme p pieces with
  | case1 => rfl
  | case2 => exact segmentStmts_apply ..
  | case3 p x xs h ih =>
    rw [piecesStmts.eq_def]
    split
    · simp_all
    · simp_all
    · next h1 =>
      cases h1
      rw [applyAll_append, segmentStmts_apply, ih]

/-- the record of an outcome -/
def SOut.record : SOut → Rec
  | .to _ _ u => u
  | .fail _ u => u

theorem shortenPathStmts_apply (b : Path) (u : Rec) (st : PState) (rest : Str) (e : Err) :
    applyAll b (shortenPathStmts u.scheme u.path) u.path =
      (match shortenRec u with | some u' => SOut.to st rest u' | none => .fail e u).record.path := by
  unfold shortenPathStmts shortenRec
  cases h : u.path with
  | «opaque» t => exact h.symm
  | list p => exact shortenStmts_apply b u.scheme p

theorem sHostEnd_path (env : Env) (ov : Bool) (buffer rest : Str) (url : Rec) :
    (sHostEnd env ov buffer rest url).record.path = url.path := by
  unfold sHostEnd; split; · rfl
  split; · rfl
  split <;> rfl

theorem sPortEnd_path (env : Env) (ov : Bool) (buffer rest : Str) (url : Rec) :
    (sPortEnd env ov buffer rest url).record.path = url.path := by
  unfold sPortEnd; dsimp only; split; · rfl
  split; · rfl
  split <;> rfl

theorem addCreds_path (url : Rec) (ui : Str) : (addCreds url ui).path = url.path := by
  unfold addCreds; split <;> rfl

/-- The path after a state is the path with the state's statements applied to it. -/
theorem pathStmts_apply (env : Env) (e : Encoding) (base : Option Rec) (ov : Option PState) (b : Path)
    (hb : ∀ r, base = some r → r.path = b) (st : PState) (rest : Str) (url : Rec) :
    applyAll b (pathStmts base ov st rest url) url.path = (sstep env e base ov st rest url).record.path := by
  cases st with
  | schemeStart =>
    show applyAll b (pathStmts base ov .schemeStart rest url) url.path = (sScheme base ov rest url).record.path
    unfold pathStmts sScheme
    dsimp only
    cases takeScheme rest with
    | none => dsimp only; split <;> rfl
    | some x =>
      dsimp only
      by_cases ho : ov.isSome
      · rw [if_pos ho, if_pos ho]
        show url.path = (overrideScheme url x.1).path
        unfold overrideScheme
        split; · rfl
        dsimp only
        split
        · split <;> rfl
        · rfl
      · rw [if_neg ho, if_neg ho]
        split
        · rfl
        · unfold Rec.isSpecial
          dsimp only
          split
          · cases base with
            | none => rfl
            | some r => dsimp only; split <;> rfl
          · split <;> rfl
  | noScheme =>
    show applyAll b (pathStmts base ov .noScheme rest url) url.path = (sNoScheme base rest url).record.path
    unfold pathStmts sNoScheme
    dsimp only
    cases base with
    | none => rfl
    | some r =>
      dsimp only
      split; · rfl
      split
      · exact (hb r rfl).symm
      · split <;> rfl
  | specialRelativeOrAuthority =>
    show url.path = (sSpecialRelativeOrAuthority rest url).record.path
    unfold sSpecialRelativeOrAuthority; split <;> rfl
  | pathOrAuthority =>
    show url.path = (sPathOrAuthority rest url).record.path
    unfold sPathOrAuthority; split <;> rfl
  | relative =>
    show applyAll b (pathStmts base ov .relative rest url) url.path = (sRelative base rest url).record.path
    unfold pathStmts sRelative
    dsimp only
    cases base with
    | none => rfl
    | some r =>
      dsimp only
      split; · rfl
      cases rest with
      | nil => exact (hb r rfl).symm
      | cons c cs =>
        dsimp only
        split; · rfl
        split; · exact (hb r rfl).symm
        split; · exact (hb r rfl).symm
        rw [applyAll_cons]
        show applyAll b _ b = _
        rw [← hb r rfl]
        exact shortenPathStmts_apply r.path { copyBase r url with query := none } _ _ _
  | relativeSlash =>
    show url.path = (sRelativeSlash base rest url).record.path
    unfold sRelativeSlash; dsimp only; split; · rfl
    split; · rfl
    cases base <;> rfl
  | specialAuthoritySlashes =>
    show url.path = (sSpecialAuthoritySlashes rest url).record.path
    unfold sSpecialAuthoritySlashes; split <;> rfl
  | specialAuthorityIgnoreSlashes => rfl
  | authority =>
    show url.path = (sAuthority rest url).record.path
    unfold sAuthority; dsimp only; split; · rfl
    split <;> exact (addCreds_path _ _).symm
  | host | hostname =>
    show url.path = (sHost env ov rest url).record.path
    unfold sHost; split; · rfl
    dsimp only
    generalize hostSpan url.isSpecial false rest = x
    unfold sHostGo
    split
    · exact (sHostEnd_path ..).symm
    · split
      · split; · rfl
        split; · rfl
        split <;> rfl
      · exact (sHostEnd_path ..).symm
  | port =>
    show url.path = (sPort env ov rest url).record.path
    unfold sPort sPortGo
    split
    · exact (sPortEnd_path ..).symm
    · split
      · exact (sPortEnd_path ..).symm
      · rfl
  | file =>
    have hp : ∀ rest : Str, (match rest with | c :: _ => (c = c!"/" || c = c!"\\") = false | [] => True) →
        applyAll b (pathStmts base ov .file rest url) url.path =
          (sFilePath base rest { url with scheme := u!"file", host := some (.str []) }).record.path := by
      intro rest hr
      unfold pathStmts sFilePath
      dsimp only
      cases base with
      | none => cases rest <;> dsimp only <;> (try split) <;> rfl
      | some r =>
        cases rest with
        | nil =>
          dsimp only
          split
          · exact (hb r rfl).symm
          · rfl
        | cons c cs =>
          dsimp only at hr ⊢
          rw [if_neg (by rw [hr]; decide)]
          split
          · split; · exact (hb r rfl).symm
            split; · exact (hb r rfl).symm
            split
            · rw [applyAll_cons]
              show applyAll b _ b = _
              rw [← hb r rfl]
              exact shortenPathStmts_apply r.path
                { url with scheme := u!"file", host := r.host, path := r.path, query := none } _ _ _
            · rfl
          · rfl
    show applyAll b (pathStmts base ov .file rest url) url.path = (sFile base rest url).record.path
    unfold sFile
    dsimp only
    cases rest with
    | nil => exact hp [] trivial
    | cons c cs =>
      dsimp only
      by_cases hc : (c = c!"/" || c = c!"\\") = true
      · rw [if_pos hc]
        unfold pathStmts
        dsimp only
        rw [if_pos hc]
        rfl
      · rw [if_neg hc]
        exact hp (c :: cs) (by simpa using hc)
  | fileSlash =>
    have hp : ∀ rest : Str, (match rest with | c :: _ => (c = c!"/" || c = c!"\\") = false | [] => True) →
        applyAll b (pathStmts base ov .fileSlash rest url) url.path =
          (sFileSlashPath base rest url).record.path := by
      intro rest hr
      unfold pathStmts sFileSlashPath
      dsimp only
      rw [if_neg (by cases rest with
        | nil => decide
        | cons c cs => dsimp only at hr ⊢; rw [hr]; decide)]
      cases base with
      | none => rfl
      | some r =>
        dsimp only
        split
        · rcases hq : r.path with t | (_ | ⟨p0, ps⟩) <;> dsimp only
          · rfl
          · rfl
          · split
            · cases h : url.path with
              | «opaque» t => rfl
              | list p => rfl
            · rfl
        · rfl
    show applyAll b (pathStmts base ov .fileSlash rest url) url.path = (sFileSlash base rest url).record.path
    unfold sFileSlash
    cases rest with
    | nil => exact hp [] trivial
    | cons c cs =>
      dsimp only
      by_cases hc : (c = c!"/" || c = c!"\\") = true
      · rw [if_pos hc]
        unfold pathStmts
        dsimp only
        rw [if_pos hc]
        rfl
      · rw [if_neg hc]
        exact hp (c :: cs) (by simpa using hc)
  | fileHost =>
    show url.path = (sFileHost env ov rest url).record.path
    unfold sFileHost sFileHostEnd
    split; · rfl
    split; · rfl
    split <;> rfl
  | pathStart =>
    show applyAll b (pathStmts base ov .pathStart rest url) url.path = (sPathStart ov rest url).record.path
    unfold pathStmts sPathStart
    cases rest with
    | nil =>
      dsimp only
      split; · rfl
      split
      · cases h : url.path with
        | «opaque» t => exact h.symm
        | list p => rfl
      · rfl
    | cons c cs =>
      dsimp only
      split; · rfl
      split; · rfl
      split; · rfl
      split <;> rfl
  | path =>
    show applyAll b (pathStmts base ov .path rest url) url.path = (sPath ov rest url).record.path
    unfold pathStmts sPath
    dsimp only
    cases h : url.path with
    | «opaque» t => exact h.symm
    | list p =>
      dsimp only
      rw [piecesStmts_apply]
      unfold afterPath
      split; · rfl
      split <;> rfl
  | opaquePath =>
    show url.path.addText _ = (sOpaquePath rest url).record.path
    unfold sOpaquePath afterPath
    split; · rfl
    split <;> rfl
  | query =>
    show url.path = (sQuery e ov rest url).record.path
    unfold sQuery; dsimp only; split; · rfl
    split; · rfl
    show _ = Rec.path (if _ then _ else _)
    split <;> rfl
  | fragment =>
    show url.path = (sFragment rest url).record.path
    unfold sFragment; split; · rfl
    split <;> rfl
  | scheme => rfl
  | eof => rfl

/-! ### no statement of the code shares -/

def PathStmt.isShare : PathStmt → Bool
  | .share => true
  | _ => false

theorem shortenPathStmts_noShare (scheme : Str) (p : Path) :
    (shortenPathStmts scheme p).all (!·.isShare) = true := by
  unfold shortenPathStmts shortenStmts
  split; · rfl
  split; · rfl
  · split <;> rfl
  · rfl

theorem segmentStmts_noShare (scheme : Str) (p : List Str) (buffer : Str) (slash : Bool) :
    (segmentStmts scheme p buffer slash).all (!·.isShare) = true := by
  unfold segmentStmts
  dsimp only
  have := shortenPathStmts_noShare scheme (.list p)
  split
  · split
    · exact this
    · rw [List.all_append, show (shortenStmts scheme p).all (!·.isShare) = true from this]; rfl
  · split
    · split <;> rfl
    · split <;> rfl

theorem piecesStmts_noShare (scheme : Str) (p : List Str) (pieces : List Str) :
    (piecesStmts scheme p pieces).all (!·.isShare) = true := by
  fun_induction piecesStmts scheme p pieces with
  | case1 => rfl
  | case2 => exact segmentStmts_noShare ..
  | case3 p x xs h ih => rw [List.all_append, segmentStmts_noShare, ih]; rfl

theorem pathStmts_noShare (base : Option Rec) (ov : Option PState) (st : PState) (rest : Str) (url : Rec) :
    (pathStmts base ov st rest url).all (!·.isShare) = true := by
  unfold pathStmts
  repeat' split
  all_goals first
    | rfl
    | exact shortenPathStmts_noShare ..
    | exact piecesStmts_noShare ..

/-! ### execution on the heap -/

/-- the value is a string or a list object that is not among the first `n` -/
def PathRef.Own (n : Nat) (h : Heap) : PathRef → Prop
  | .str _ => True
  | .obj a => n ≤ a ∧ a < h.length

/-- the value is a string or one of the first `n` list objects -/
def PathRef.Old (n : Nat) : PathRef → Prop
  | .str _ => True
  | .obj a => a < n

theorem Heap.read_old {h h' : Heap} {n : Nat} {r : PathRef} (ho : r.Old n) (ht : h'.take n = h.take n) :
    h'.read r = h.read r := by
  cases r with
  | str t => rfl
  | obj a =>
    show Path.list _ = Path.list _
    have h1 : (h'.take n)[a]? = (h.take n)[a]? := by rw [ht]
    rw [List.getElem?_take_of_lt ho, List.getElem?_take_of_lt ho] at h1
    rw [List.getD_eq_getElem?_getD, List.getD_eq_getElem?_getD, h1]

/-- One statement: it computes the same path as the value-based statement, leaves the first `n`
objects as they are, and leaves `url.path` a string or an object beyond the first `n`. -/
theorem exec_sound (n : Nat) (bp : PathRef) (hbp : bp.Old n) (p : PathStmt) (hp : p.isShare = false)
    (h : Heap) (r : PathRef) (hn : n ≤ h.length) (hr : r.Own n h) :
    (p.exec bp (h, r)).1.read (p.exec bp (h, r)).2 = p.apply (h.read bp) (h.read r) ∧
      (p.exec bp (h, r)).1.take n = h.take n ∧ n ≤ (p.exec bp (h, r)).1.length ∧
      (p.exec bp (h, r)).2.Own n (p.exec bp (h, r)).1 := by
  have hnew : ∀ l : List Str, Heap.read (h ++ [l]) (.obj h.length) = .list l ∧ (h ++ [l]).take n = h.take n ∧
      n ≤ (h ++ [l]).length ∧ PathRef.Own n (h ++ [l]) (.obj h.length) := by
    intro l
    refine ⟨?_, List.take_append_of_le_length hn, ?_, hn, ?_⟩
    · show Path.list _ = _
      rw [List.getD_eq_getElem?_getD, List.getElem?_append_right (Nat.le_refl _), Nat.sub_self]; rfl
    · rw [List.length_append]; omega
    · rw [List.length_append]; show _ < _ + 1; omega
  have hset : ∀ (a : Nat) (l : List Str), n ≤ a → a < h.length →
      Heap.read (h.set a l) (.obj a) = .list l ∧ (h.set a l).take n = h.take n ∧
      n ≤ (h.set a l).length ∧ PathRef.Own n (h.set a l) (.obj a) := by
    intro a l h1 h2
    refine ⟨?_, ?_, ?_, h1, ?_⟩
    · show Path.list _ = _
      rw [List.getD_eq_getElem?_getD, List.getElem?_set_self h2]; rfl
    · rw [List.take_set, List.set_eq_of_length_le (by rw [List.length_take]; omega)]
    · rw [List.length_set]; exact hn
    · rw [List.length_set]; exact h2
  cases p with
  | newList => exact hnew []
  | newStr => exact ⟨rfl, rfl, hn, trivial⟩
  | copy =>
    cases bp with
    | str t => exact ⟨rfl, rfl, hn, trivial⟩
    | obj a => exact hnew _
  | share => cases hp
  | append x =>
    cases r with
    | str t => exact ⟨rfl, rfl, hn, trivial⟩
    | obj a => exact hset a _ hr.1 hr.2
  | delLast =>
    cases r with
    | str t => exact ⟨rfl, rfl, hn, trivial⟩
    | obj a => exact hset a _ hr.1 hr.2
  | extend x =>
    cases r with
    | str t => exact ⟨rfl, rfl, hn, trivial⟩
    | obj a => exact hset a _ hr.1 hr.2

theorem execAll_sound (n : Nat) (bp : PathRef) (hbp : bp.Old n) (l : List PathStmt) :
    ∀ (h : Heap) (r : PathRef), l.all (!·.isShare) = true → n ≤ h.length → r.Own n h →
    (execAll bp l (h, r)).1.read (execAll bp l (h, r)).2 = applyAll (h.read bp) l (h.read r) ∧
      (execAll bp l (h, r)).1.take n = h.take n ∧ n ≤ (execAll bp l (h, r)).1.length ∧
      (execAll bp l (h, r)).2.Own n (execAll bp l (h, r)).1 := by
  induction l with
  | nil => intro h r _ hn hr; exact ⟨rfl, rfl, hn, hr⟩
  | cons p l ih =>
    intro h r ha hn hr
    rw [List.all_cons, Bool.and_eq_true] at ha
    obtain ⟨h1, h2, h3, h4⟩ := exec_sound n bp hbp p (by simpa using ha.1) h r hn hr
    obtain ⟨i1, i2, i3, i4⟩ := ih (p.exec bp (h, r)).1 (p.exec bp (h, r)).2 ha.2 h3 h4
    refine ⟨?_, ?_, i3, i4⟩
    · show (execAll bp l (p.exec bp (h, r))).1.read (execAll bp l (p.exec bp (h, r))).2 = _
      rw [show p.exec bp (h, r) = ((p.exec bp (h, r)).1, (p.exec bp (h, r)).2) from rfl, i1, h1,
        Heap.read_old hbp h2]
      rfl
    · exact i2.trans h2

/-- The parser on the heap computes what the value-based parser computes and does not touch the
first `n` objects. -/
theorem heapRun_sound (env : Env) (e : Encoding) (base : Option Rec) (ov : Option PState) (bp : PathRef) (n : Nat)
    (hbp : bp.Old n) (b : Path) (hb : ∀ r, base = some r → r.path = b) :
    ∀ (fuel : Nat) (st : PState) (rest : Str) (url : Rec) (h : Heap) (r : PathRef),
    st.rank ≤ fuel → n ≤ h.length → r.Own n h → h.read r = url.path → (base.isSome → h.read bp = b) →
    let o := heapRun env e base ov bp fuel st rest url (h, r)
    (o.res, o.url) = srun env e base ov fuel st rest url ∧ o.heap.read o.ref = o.url.path ∧
      o.heap.take n = h.take n ∧ n ≤ o.heap.length ∧ o.ref.Own n o.heap := by
  intro fuel
  induction fuel with
  | zero =>
    intro st rest url h r hk hn hr hu hbr
    dsimp only
    rw [rank_zero (Nat.le_zero.1 hk)]
    unfold heapRun srun
    rw [if_pos rfl, if_pos rfl]
    exact ⟨rfl, hu, rfl, hn, hr⟩
  | succ fuel ih =>
    intro st rest url h r hk hn hr hu hbr
    dsimp only
    by_cases he : st = .eof
    · unfold heapRun srun
      rw [if_pos he, if_pos he]
      exact ⟨rfl, hu, rfl, hn, hr⟩
    · unfold heapRun srun
      rw [if_neg he, if_neg he]
      dsimp only
      have hb' : ∀ q, base = some q → q.path = h.read bp := fun q hq =>
        (hb q hq).trans (hbr (by rw [hq]; rfl)).symm
      have hpath := pathStmts_apply env e base ov (h.read bp) hb' st rest url
      obtain ⟨i1, i2, i3, i4⟩ :=
        execAll_sound n bp hbp (pathStmts base ov st rest url) h r (pathStmts_noShare ..) hn hr
      rw [hu, hpath] at i1
      have hbelow := sstep_below env e base ov st rest url
      cases hs : sstep env e base ov st rest url with
      | fail err u =>
        rw [hs] at i1
        exact ⟨rfl, i1, i2, i3, i4⟩
      | to st' rest' u =>
        rw [hs] at i1 hbelow
        obtain ⟨j1, j2, j3, j4⟩ := ih st' rest' u _ _ (by have : st'.rank < st.rank := hbelow; omega) i3 i4 i1
          (fun h0 => (Heap.read_old hbp i2).trans (hbr h0))
        exact ⟨j1, j2, j3.trans i2, j4⟩

theorem heapParse_sound (env : Env) (s : Str) (base : Option Rec) (e : Encoding) (h : Heap) (bp : PathRef)
    (hbp : bp.Old h.length) (hb : ∀ r, base = some r → h.read bp = r.path) :
    let o := heapParse env s base e h bp
    (o.res, o.url) = eval env e base none .schemeStart (prepared s none) {} ∧ o.heap.read o.ref = o.url.path ∧
      o.heap.take h.length = h ∧ h.length ≤ o.heap.length ∧ o.ref.Own h.length o.heap := by
  have h0 : (h ++ [[]]).take h.length = h := by rw [List.take_append_of_le_length (Nat.le_refl _), List.take_length]
  have h1 : Heap.read (h ++ [[]]) bp = h.read bp := Heap.read_old hbp (by rw [h0, List.take_length])
  have := heapRun_sound env e base none bp h.length hbp (h.read bp) (fun r hr => (hb r hr).symm) 20 .schemeStart
    (prepared s none) {} (h ++ [[]]) (.obj h.length) (by decide) (by rw [List.length_append]; omega)
    (by refine ⟨Nat.le_refl _, ?_⟩; rw [List.length_append]; show _ < _ + 1; omega)
    (by show Path.list _ = Path.list _
        rw [List.getD_eq_getElem?_getD, List.getElem?_append_right (Nat.le_refl _), Nat.sub_self]; rfl)
    (fun _ => h1)
  rw [h0] at this
  exact this

end Urlstd
