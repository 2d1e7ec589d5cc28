/-
Lemmas on `URLSearchParams`.
-/
import Verif.Lemmas.History
import Verif.Spec.Params

set_option linter.unusedSimpArgs false
set_option linter.unusedVariables false

namespace Urlstd

open Spec (IsStr IsScalarStr decoded NoEscape)

/-! ### Names -/

theorem decName_eq {s : Str} (hs : IsStr s) : decName s = decoded s := by
  unfold decName decoded stringPercentDecode
  rw [utf8Decode_eq, percentDecode_eq, utf8Encode_eq s hs]

theorem specPD_append_high (x y : Bytes) (h : ∀ b ∈ x, b ≠ 37) :
    Spec.percentDecode (x ++ y) = x ++ Spec.percentDecode y := by
  induction x with
  | nil => rfl
  | cons a x ih =>
    have ha := h a (by simp)
    rw [List.cons_append, ← percentDecode_eq, percentDecode_cons_other ha, percentDecode_eq,
      ih fun b hb => h b (by simp [hb])]
    rfl

theorem utf8CP_head {c : Nat} (h : ¬ c ≤ 0x7F) {b : Nat} (hb : b ∈ Spec.utf8CP c) : 128 ≤ b := by
  unfold Spec.utf8CP at hb
  rw [if_neg h] at hb
  split at hb
  · simp only [List.mem_cons, List.not_mem_nil, or_false] at hb; omega
  · split at hb <;> simp only [List.mem_cons, List.not_mem_nil, or_false] at hb <;> omega

theorem utf8CP_low {c : Nat} (h : c ≤ 0x7F) : Spec.utf8CP c = [c] := by unfold Spec.utf8CP; rw [if_pos h]

theorem isHex_lt {c : Nat} (h : isHex c = true) : c < 128 := by
  unfold isHex isDigit at h
  simp at h
  omega

theorem utf8CP_ne_nil (c : Nat) : Spec.utf8CP c ≠ [] := by
  unfold Spec.utf8CP; split
  · simp
  · split
    · simp
    · split <;> simp

/-- the first character of a string whose encoding starts with a low byte -/
theorem utf8_flat_head {s : Str} {b : Nat} {r : Bytes} (h : s.flatMap Spec.utf8CP = b :: r) (hb : b < 128) :
    ∃ t, s = b :: t ∧ t.flatMap Spec.utf8CP = r := by
  cases s with
  | nil => simp at h
  | cons c t =>
    rw [List.flatMap_cons] at h
    by_cases hc : c ≤ 0x7F
    · rw [utf8CP_low hc] at h
      simp only [List.cons_append, List.nil_append, List.cons.injEq] at h
      obtain ⟨rfl, h⟩ := h
      exact ⟨t, rfl, h⟩
    · cases hu : Spec.utf8CP c with
      | nil => exact absurd hu (utf8CP_ne_nil c)
      | cons x xs =>
        have h1 := utf8CP_head hc (b := x) (by simp [hu])
        rw [hu] at h
        simp only [List.cons_append, List.cons.injEq] at h
        omega

theorem specPD_noEscape {s : Str} (h : NoEscape s) :
    Spec.percentDecode (s.flatMap Spec.utf8CP) = s.flatMap Spec.utf8CP := by
  induction s with
  | nil => rfl
  | cons c t ih =>
    have ht : NoEscape t := fun pre a b post e => h (c :: pre) a b post (by rw [e]; rfl)
    rw [List.flatMap_cons]
    by_cases hc : c = 37
    · subst hc
      rw [utf8CP_low (by decide)]
      simp only [List.cons_append, List.nil_append]
      match hr : t.flatMap Spec.utf8CP with
      | [] => rfl
      | [x] => simp [Spec.percentDecode]
      | x :: y :: r =>
        rw [hr] at ih
        rw [Spec.percentDecode]
        split
        · next hxy =>
          exfalso
          obtain ⟨t1, rfl, h1⟩ := utf8_flat_head hr (isHex_lt hxy.1)
          obtain ⟨t2, rfl, h2⟩ := utf8_flat_head h1 (isHex_lt hxy.2)
          exact h [] x y t2 rfl hxy
        · rw [ih ht]
    · rw [specPD_append_high, ih ht]
      intro b hb
      by_cases h7 : c ≤ 0x7F
      · rw [utf8CP_low h7] at hb
        simp only [List.mem_cons, List.not_mem_nil, or_false] at hb
        rw [hb]; exact hc
      · have := utf8CP_head h7 hb; omega

theorem decoded_plain {s : Str} (hs : IsScalarStr s) (h : NoEscape s) : decoded s = s := by
  have h1 : Spec.percentDecode (Spec.utf8 s) = Spec.utf8 s := by
    unfold Spec.utf8; rw [combine_of_scalar s hs]; exact specPD_noEscape h
  unfold decoded
  rw [h1, ← utf8Encode_eq s hs.isStr, ← utf8Decode_eq, usv_core s hs.isStr, combine_of_scalar s hs]

/-! ### delete, set -/

theorem spDeleteLoop_eq (n : Str) (v : Option ParamVal) (snap : Params) (k : Nat) (hk : k ≤ snap.length) (r : Params) :
    spDeleteLoop n v snap k (snap.take k ++ r) = (snap.take k).filter (fun p => !spMatch n v p) ++ r := by
  induction k generalizing r with
  | zero => simp [spDeleteLoop]
  | succ k ih =>
    have hk' : k < snap.length := hk
    have e : snap.take (k + 1) = snap.take k ++ [snap[k]] := by rw [List.take_succ_eq_append_getElem hk']
    unfold spDeleteLoop
    rw [List.getElem?_eq_getElem hk']
    dsimp only
    rw [e, List.filter_append, List.append_assoc]
    split
    · next hm =>
      have : (snap.take k ++ ([snap[k]] ++ r)).eraseIdx k = snap.take k ++ r := by
        rw [List.eraseIdx_append_of_length_le (by simp; omega)]
        simp [Nat.min_eq_left (Nat.le_of_lt hk')]
      rw [this, ih (by omega)]
      simp [hm]
    · next hm =>
      rw [ih (by omega)]
      simp [hm]

theorem spDelete_eq (l : Params) (n : Str) (v : Option ParamVal) :
    spDelete l n v = l.filter fun p => !spMatch (decName n) v p := by
  unfold spDelete
  have := spDeleteLoop_eq (decName n) v l l.length (Nat.le_refl _) []
  simpa using this

theorem spSetLoop_eq (n : Str) (pre post : Params) (x : Str × Str) (k : Nat) (hk : k ≤ post.length) (r : Params) :
    spSetLoop n pre.length k (pre ++ x :: (post.take k ++ r)) =
      pre ++ x :: ((post.take k).filter (fun p => decide (p.1 ≠ n)) ++ r) := by
  induction k generalizing r with
  | zero => simp [spSetLoop]
  | succ k ih =>
    have hk' : k < post.length := hk
    have e : post.take (k + 1) = post.take k ++ [post[k]] := by rw [List.take_succ_eq_append_getElem hk']
    unfold spSetLoop
    have hg : (pre ++ x :: (post.take (k + 1) ++ r))[pre.length + k + 1]? = some post[k] := by
      rw [List.getElem?_append_right (by omega)]
      have : pre.length + k + 1 - pre.length = k + 1 := by omega
      rw [this, List.getElem?_cons_succ, List.getElem?_append_left (by simp; omega)]
      simp
    rw [hg]
    dsimp only
    rw [e, List.filter_append, List.append_assoc, List.append_assoc]
    split
    · next hm =>
      have : (pre ++ x :: (post.take k ++ ([post[k]] ++ r))).eraseIdx (pre.length + k + 1) =
          pre ++ x :: (post.take k ++ r) := by
        rw [List.eraseIdx_append_of_length_le (by omega)]
        have h1 : pre.length + k + 1 - pre.length = k + 1 := by omega
        rw [h1, List.eraseIdx_cons_succ, List.eraseIdx_append_of_length_le (by simp; omega)]
        simp [Nat.min_eq_left (Nat.le_of_lt hk')]
      rw [this, ih (by omega)]
      simp [hm]
    · next hm =>
      rw [ih (by omega)]
      simp [hm]

theorem findName_none {n : Str} {l : Params} (i : Nat) (h : ∀ p ∈ l, p.1 ≠ n) : findName n l i = none := by
  induction l generalizing i with
  | nil => rfl
  | cons p l ih =>
    unfold findName
    rw [if_neg (h p (by simp))]
    exact ih _ fun q hq => h q (by simp [hq])

theorem findName_some {n : Str} {pre : Params} (w : Str) (post : Params) (i : Nat) (h : ∀ p ∈ pre, p.1 ≠ n) :
    findName n (pre ++ (n, w) :: post) i = some (i + pre.length) := by
  induction pre generalizing i with
  | nil => simp [findName]
  | cons p l ih =>
    rw [List.cons_append, findName, if_neg (h p (by simp)), ih _ fun q hq => h q (by simp [hq])]
    simp; omega

theorem spSet_none {l : Params} {n : Str} (v : ParamVal) (h : ∀ p ∈ l, p.1 ≠ decName n) :
    spSet l n v = l ++ [(decName n, decName v.toStr)] := by
  unfold spSet
  dsimp only
  rw [findName_none 0 h]

theorem spSet_some {pre : Params} {n : Str} (w : Str) (post : Params) (v : ParamVal)
    (h : ∀ p ∈ pre, p.1 ≠ decName n) :
    spSet (pre ++ (decName n, w) :: post) n v =
      pre ++ (decName n, decName v.toStr) :: post.filter (fun p => decide (p.1 ≠ decName n)) := by
  unfold spSet
  dsimp only
  rw [findName_some w post 0 h]
  dsimp only
  have e : (pre ++ (decName n, w) :: post).set (0 + pre.length) (decName n, decName v.toStr) =
      pre ++ (decName n, decName v.toStr) :: post := by
    rw [Nat.zero_add, List.set_append_right _ _ (Nat.le_refl _)]; simp
  have hl : (pre ++ (decName n, decName v.toStr) :: post).length - 1 - (0 + pre.length) = post.length := by
    simp
  rw [e, hl, Nat.zero_add]
  have := spSetLoop_eq (decName n) pre post (decName n, decName v.toStr) post.length (Nat.le_refl _) []
  simpa using this

/-- a list either has no pair of a name or splits at the first one -/
theorem split_first (n : Str) (l : Params) :
    (∀ p ∈ l, p.1 ≠ n) ∨ ∃ pre w post, l = pre ++ (n, w) :: post ∧ ∀ p ∈ pre, p.1 ≠ n := by
  induction l with
  | nil => exact .inl (by simp)
  | cons p l ih =>
    by_cases hp : p.1 = n
    · exact .inr ⟨[], p.2, l, by rw [← hp]; rfl, by simp⟩
    · rcases ih with h | ⟨pre, w, post, rfl, h⟩
      · refine .inl fun q hq => ?_
        rcases List.mem_cons.1 hq with rfl | hq
        · exact hp
        · exact h q hq
      · refine .inr ⟨p :: pre, w, post, rfl, fun q hq => ?_⟩
        rcases List.mem_cons.1 hq with rfl | hq
        · exact hp
        · exact h q hq

/-! ### get, has -/

theorem spGet_go_eq (n : Str) (l : Params) :
    spGet.go n l = ((l.filter fun p => p.1 == n).map Prod.snd).head? := by
  induction l with
  | nil => rfl
  | cons p l ih =>
    unfold spGet.go
    by_cases h : p.1 = n
    · rw [if_pos h]; simp [h]
    · rw [if_neg h, ih]; simp [h]

theorem spHas_go_iff (v : Option ParamVal) (n : Str) (l : Params) :
    spHas.go v n l = true ↔ ∃ p ∈ l, spMatch n v p = true := by
  induction l with
  | nil => simp [spHas.go]
  | cons p l ih =>
    unfold spHas.go
    by_cases h : spMatch n v p = true
    · simp [h]
    · rw [if_neg h, ih]; simp [h]

/-! ### sort -/

theorem utf16Units_eq (s : Str) : utf16Units s = Spec.utf16 s := rfl

theorem u16len_eq (s : Str) : u16len s = (utf16Units s).length := by
  unfold u16len
  induction s with
  | nil => rfl
  | cons c s ih =>
    by_cases h : c < 0x10000
    · rw [utf16Units_cons_lt h, List.map_cons, List.sum_cons, ih, if_pos (by omega), List.length_cons]; omega
    · rw [utf16Units_cons_ge h, List.map_cons, List.sum_cons, ih, if_neg (by omega), List.length_cons,
        List.length_cons]; omega

theorem sortKey_eq (s : Str) : sortKey s = Spec.utf16 s := by
  unfold sortKey; rw [u16len_eq, List.take_length]; rfl

theorem ltUnits_false {a b : List Nat} (h : ltUnits a b = false) : Spec.UnitsLE b a := by
  fun_induction ltUnits a b with
  | case1 => exact .nil _
  | case2 => cases h
  | case3 => cases h
  | case4 a as b bs h1 h2 => exact .lt h2
  | case5 a as b bs h1 h2 ih =>
    have : a = b := by omega
    subst this; exact .eq (ih h)

theorem ltUnits_true {a b : List Nat} (h : ltUnits a b = true) : Spec.UnitsLE a b := by
  fun_induction ltUnits a b with
  | case1 => cases h
  | case2 => exact .nil _
  | case3 a as b bs h1 => exact .lt h1
  | case4 => cases h
  | case5 a as b bs h1 h2 ih =>
    have : a = b := by omega
    subst this; exact .eq (ih h)

theorem UnitsLE.trans {a b c : List Nat} (h1 : Spec.UnitsLE a b) (h2 : Spec.UnitsLE b c) : Spec.UnitsLE a c := by
  induction h1 generalizing c with
  | nil => exact .nil _
  | lt h =>
    cases h2 with
    | lt h' => exact .lt (by omega)
    | eq _ => exact .lt h
  | eq h ih =>
    cases h2 with
    | lt h' => exact .lt h'
    | eq h' => exact .eq (ih h')

theorem ltUnits_irrefl (a : List Nat) : ltUnits a a = false := by
  induction a with
  | nil => rfl
  | cons x xs ih => simp [ltUnits, ih]

def NameLE (x y : Str × Str) : Prop := Spec.UnitsLE (Spec.utf16 x.1) (Spec.utf16 y.1)

theorem insertByName_perm (x : Str × Str) (l : Params) : (insertByName x l).Perm (x :: l) := by
  induction l with
  | nil => exact List.Perm.refl _
  | cons y ys ih =>
    unfold insertByName
    split
    · exact (List.Perm.cons y ih).trans (List.Perm.swap x y ys)
    · exact List.Perm.refl _

theorem spSort_perm (l : Params) : (spSort l).Perm l := by
  induction l with
  | nil => exact List.Perm.refl _
  | cons x xs ih => exact (insertByName_perm x _).trans (List.Perm.cons x ih)

theorem insertByName_sorted (x : Str × Str) {l : Params} (h : l.Pairwise NameLE) :
    (insertByName x l).Pairwise NameLE := by
  induction l with
  | nil => simp [insertByName]
  | cons y ys ih =>
    rw [List.pairwise_cons] at h
    unfold insertByName
    split
    · next hlt =>
      rw [sortKey_eq, sortKey_eq] at hlt
      rw [List.pairwise_cons]
      refine ⟨fun z hz => ?_, ih h.2⟩
      rcases mem_insertByName hz with rfl | hz
      · exact ltUnits_true hlt
      · exact h.1 z hz
    · next hlt =>
      rw [sortKey_eq, sortKey_eq] at hlt
      have hxy : NameLE x y := ltUnits_false (by simpa using hlt)
      rw [List.pairwise_cons]
      refine ⟨fun z hz => ?_, List.pairwise_cons.2 h⟩
      rcases List.mem_cons.1 hz with rfl | hz
      · exact hxy
      · exact UnitsLE.trans hxy (h.1 z hz)

theorem spSort_sorted (l : Params) : (spSort l).Pairwise NameLE := by
  induction l with
  | nil => exact List.Pairwise.nil
  | cons x xs ih => exact insertByName_sorted x ih

theorem insertByName_filter (k : List Nat) (x : Str × Str) (l : Params) :
    (insertByName x l).filter (fun p => Spec.utf16 p.1 == k) = (x :: l).filter (fun p => Spec.utf16 p.1 == k) := by
  induction l with
  | nil => rfl
  | cons y ys ih =>
    unfold insertByName
    split
    · next hlt =>
      rw [sortKey_eq, sortKey_eq] at hlt
      rw [List.filter_cons, ih, List.filter_cons, List.filter_cons, List.filter_cons]
      by_cases hx : Spec.utf16 x.1 = k
      · by_cases hy : Spec.utf16 y.1 = k
        · rw [hx, hy, ltUnits_irrefl] at hlt; cases hlt
        · simp [hx, hy]
      · simp [hx]
    · rfl

theorem spSort_filter (k : List Nat) (l : Params) :
    (spSort l).filter (fun p => Spec.utf16 p.1 == k) = l.filter (fun p => Spec.utf16 p.1 == k) := by
  induction l with
  | nil => rfl
  | cons x xs ih =>
    show (insertByName x (spSort xs)).filter _ = _
    rw [insertByName_filter, List.filter_cons, ih, List.filter_cons]

theorem UnitsLE.antisymm {a b : List Nat} (h1 : Spec.UnitsLE a b) (h2 : Spec.UnitsLE b a) : a = b := by
  induction h1 with
  | nil b => cases h2; rfl
  | lt h =>
    cases h2 with
    | lt h' => omega
    | eq _ => omega
  | eq h ih =>
    cases h2 with
    | lt h' => omega
    | eq h' => rw [ih h']

/-- two sorted lists with the same pairs for every key are equal -/
theorem sorted_unique {a b : Params} (ha : a.Pairwise NameLE) (hb : b.Pairwise NameLE)
    (h : ∀ k, a.filter (fun p => Spec.utf16 p.1 == k) = b.filter (fun p => Spec.utf16 p.1 == k)) : a = b := by
  have mem : ∀ {a b : Params}, (∀ k, a.filter (fun p => Spec.utf16 p.1 == k) =
      b.filter (fun p => Spec.utf16 p.1 == k)) → ∀ p ∈ a, p ∈ b := by
    intro a b h p hp
    have : p ∈ a.filter (fun q => Spec.utf16 q.1 == Spec.utf16 p.1) := List.mem_filter.2 ⟨hp, by simp⟩
    rw [h] at this
    exact (List.mem_filter.1 this).1
  induction a generalizing b with
  | nil =>
    cases b with
    | nil => rfl
    | cons y ys => exact absurd (mem (fun k => (h k).symm) y (by simp)) (by simp)
  | cons x xs ih =>
    cases b with
    | nil => exact absurd (mem h x (by simp)) (by simp)
    | cons y ys =>
      rw [List.pairwise_cons] at ha hb
      have hxy : Spec.UnitsLE (Spec.utf16 x.1) (Spec.utf16 y.1) := by
        rcases List.mem_cons.1 (mem (fun k => (h k).symm) y (by simp)) with e | e
        · rw [e]; exact ltUnits_false (ltUnits_irrefl _)
        · exact ha.1 y e
      have hyx : Spec.UnitsLE (Spec.utf16 y.1) (Spec.utf16 x.1) := by
        rcases List.mem_cons.1 (mem h x (by simp)) with e | e
        · rw [e]; exact ltUnits_false (ltUnits_irrefl _)
        · exact hb.1 x e
      have hk := UnitsLE.antisymm hxy hyx
      have h1 := h (Spec.utf16 x.1)
      rw [List.filter_cons, List.filter_cons, if_pos (by simp), if_pos (by simp [hk])] at h1
      have hx : x = y := (List.cons.inj h1).1
      subst hx
      congr 1
      refine ih ha.2 hb.2 fun k => ?_
      have := h k
      rw [List.filter_cons, List.filter_cons] at this
      split at this
      · exact (List.cons.inj this).2
      · exact this

/-! ### Reachable lists -/

theorem component_ne_question {s : Str} (hs : IsStr s) {x : Nat}
    (hx : x ∈ stringPercentEncode s safeUrlencoded .utf8 true) : x ≠ 63 := by
  change x ∈ utf8PercentEncode s safeUrlencoded true at hx
  rw [utf8PercentEncode_eq, List.mem_flatMap] at hx
  obtain ⟨b, hb, hx⟩ := hx
  have hb := utf8Encode_bytes s hs b hb
  unfold quotePlus at hx
  split at hx
  · simp at hx; omega
  · rcases mem_quoter hb hx with h | h | h
    · obtain ⟨rfl, h⟩ := h
      rw [quoteSafe_urlencoded hb] at h
      rintro rfl; exact absurd h (by decide)
    · omega
    · rintro rfl; exact absurd h.1 (by decide)

theorem urlencode_ne_question {l : Params} (h : ScalarPairs l) (t : Str) : urlencode l ≠ 63 :: t := by
  intro e
  cases l with
  | nil => cases e
  | cons p ps =>
    have hp := (h p (by simp)).1.isStr
    have : ∃ r, urlencode (p :: ps) = stringPercentEncode p.1 safeUrlencoded .utf8 true ++ 61 :: r := by
      unfold urlencode
      cases ps with
      | nil => exact ⟨_, by simp [joinWith]; rfl⟩
      | cons a b => exact ⟨_, by simp [joinWith]; rfl⟩
    obtain ⟨r, hr⟩ := this
    rw [hr] at e
    cases hc : stringPercentEncode p.1 safeUrlencoded .utf8 true with
    | nil => rw [hc] at e; cases e
    | cons x xs =>
      rw [hc] at e
      cases e
      exact component_ne_question hp (x := 63) (by rw [hc]; simp) rfl

theorem spOfStr_scalar (s : Str) : ScalarPairs (spOfStr s) := by
  unfold spOfStr; split <;> exact scalar_parseQsl _

theorem usv_scalar (s : Str) : IsScalarStr (usv s) := utf8Decode_isScalar _

theorem dictSet_scalar {k v : Str} {l : Params} (hk : IsScalarStr k) (hv : IsScalarStr v) (h : ScalarPairs l) :
    ScalarPairs (dictSet k v l) := by
  induction l with
  | nil => intro p hp; simp only [dictSet, List.mem_cons, List.not_mem_nil, or_false] at hp; subst hp; exact ⟨hk, hv⟩
  | cons x xs ih =>
    have hx := h x (by simp)
    have hxs : ScalarPairs xs := fun p hp => h p (by simp [hp])
    unfold dictSet
    split
    · intro p hp
      rcases List.mem_cons.1 hp with rfl | hp
      · exact ⟨hx.1, hv⟩
      · exact hxs p hp
    · intro p hp
      rcases List.mem_cons.1 hp with rfl | hp
      · exact hx
      · exact ih hxs p hp

theorem spOfDict_scalar (init : List (ParamVal × ParamVal)) : ScalarPairs (spOfDict init) := by
  unfold spOfDict
  have : ∀ acc : Params, ScalarPairs acc →
      ScalarPairs (init.foldl (fun acc nv => dictSet (usv nv.1.toStr) (usv nv.2.toStr) acc) acc) := by
    induction init with
    | nil => intro acc h; exact h
    | cons x xs ih => intro acc h; exact ih _ (dictSet_scalar (usv_scalar _) (usv_scalar _) h)
  exact this [] (by intro p hp; simp at hp)

theorem _root_.Urlstd.Spec.ParamsReached.scalar {l : Params} (h : Spec.ParamsReached l) : ScalarPairs l := by
  induction h with
  | empty => intro p hp; simp at hp
  | ofPairs =>
    intro p hp
    unfold spOfPairs at hp
    rw [List.mem_map] at hp
    obtain ⟨x, _, rfl⟩ := hp
    exact ⟨usv_scalar _, usv_scalar _⟩
  | ofDict => exact spOfDict_scalar _
  | ofStr => exact spOfStr_scalar _
  | ofParams => exact spOfStr_scalar _
  | ofUrl h => exact (h.objOK (hostSpec_true _)).scalar
  | attach => exact scalar_parseQsl _
  | append n v _ ih => exact scalar_append ih n v
  | delete n v _ ih => exact scalar_delete ih n v
  | set n v _ ih => exact scalar_set ih n v
  | sort _ ih => exact scalar_sort ih

end Urlstd
