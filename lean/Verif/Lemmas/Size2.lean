/-
Lengths of hosts, paths, queries and of what the rules of C83 give.
-/
import Verif.Lemmas.Size
import Verif.Lemmas.Denote
import Verif.Lemmas.Again

set_option linter.unusedVariables false

namespace Urlstd

open Spec (IsStr IsScalarStr combineSurrogates utf8CP)

/-! ### Encoding -/

theorem specPE_length (keep : Nat → Bool) (plus : Bool) (bs : Bytes) : (Spec.percentEncode keep plus bs).length ≤ 3 * bs.length := by
  unfold Spec.percentEncode
  refine flatMap_length_le (fun b => ?_) bs
  split
  · simp
  · split <;> simp [Spec.pct]

theorem specUtf8_length {s : Str} (hs : IsStr s) : (Spec.utf8 s).length ≤ 4 * s.length := by
  rw [← utf8Encode_eq s hs]; exact utf8Encode_length hs

theorem pe_length (keep : Nat → Bool) (plus : Bool) {s : Str} (hs : IsStr s) {C : Nat} (hC : 12 ≤ C) :
    (Spec.percentEncode keep plus (Spec.utf8 s)).length ≤ C * s.length := by
  have h1 := specPE_length keep plus (Spec.utf8 s)
  have h2 := specUtf8_length hs
  have h3 := Nat.mul_le_mul_right s.length hC
  omega

theorem upe_length (safe : Nat → Bool) {s : Str} (hs : IsStr s) {C : Nat} (hC : 12 ≤ C) :
    (utf8PercentEncode s safe).length ≤ C * s.length := by
  rw [utf8PercentEncode_spec hs (keep := quoteSafe safe) fun _ _ => rfl]
  exact pe_length _ _ hs hC

theorem opaqueEncode_length {s : Str} (hs : IsStr s) {C : Nat} (hC : 12 ≤ C) : (Spec.opaqueEncode s).length ≤ C * s.length := by
  unfold Spec.opaqueEncode
  induction s with
  | nil => simp
  | cons c cs ih =>
    have h1 := pe_length (fun b => !Spec.c0Set b) false (s := [c]) (fun x hx => hs x (by simp_all)) hC
    have h2 := ih fun x hx => hs x (List.mem_cons_of_mem _ hx)
    rw [List.flatMap_cons, List.length_append, List.length_cons, Nat.mul_add]
    simp only [List.length_singleton] at h1
    omega

/-! ### Queries -/

theorem plus_encChar {keep : Nat → Bool} (h43 : keep 43 = true) {c : Nat} (hc : c ≤ 0x10FFFF) :
    plusToSpace (Spec.percentEncode keep false (utf8CP c)) = encChar keep true c := by
  unfold encChar
  by_cases h : c = 43
  · subst h
    rw [if_pos ⟨rfl, rfl⟩, utf8CP_ascii (by decide)]
    simp [Spec.percentEncode, h43, plusToSpace]
  · rw [if_neg (by simp [h])]
    unfold plusToSpace
    have : ∀ x ∈ Spec.percentEncode keep false (utf8CP c), x ≠ 43 := by
      intro x hx
      unfold Spec.percentEncode at hx
      obtain ⟨b, hb, hx⟩ := List.mem_flatMap.1 hx
      rw [if_neg (by simp)] at hx
      have hb2 : b < 256 ∧ b ≠ 43 := by
        rw [← utf8EncodeCP_eq] at hb
        refine ⟨utf8EncodeCP_bytes c hc b hb, ?_⟩
        rintro rfl
        by_cases ha : c < 0x80
        · rw [utf8EncodeCP_ascii ha] at hb
          simp only [List.mem_singleton] at hb
          omega
        · have := utf8EncodeCP_nonascii ha _ hb
          omega
      split at hx
      · simp only [List.mem_singleton] at hx
        omega
      · have hh : ∀ d < 16, Spec.hexUpper d ≠ 43 := by decide
        simp only [Spec.pct, List.mem_cons, List.not_mem_nil, or_false] at hx
        rcases hx with rfl | rfl | rfl
        · decide
        · exact hh _ (by omega)
        · exact hh _ (by omega)
    conv => rhs; rw [← List.map_id (Spec.percentEncode keep false (utf8CP c))]
    refine List.map_congr_left fun x hx => ?_
    rw [if_neg (this x hx)]
    rfl

theorem queryEncode_shown (sp : Bool) {v : Str} (hv : IsStr v) : shown (Spec.queryEncode sp v) ≤ v.length := by
  have hs := combine_isScalar v hv
  have e : plusToSpace (Spec.queryEncode sp v) = (combineSurrogates v).flatMap
      (encChar (fun b => 0x20 ≤ b && b ≤ 0x7E && !(u!" \"#<>").contains b && !(sp && b == c!"'")) true) := by
    unfold Spec.queryEncode Spec.utf8
    generalize hk : (fun b => 0x20 ≤ b && b ≤ 0x7E && !(u!" \"#<>").contains b && !(sp && b == c!"'")) = keep
    have h43 : keep 43 = true := by rw [← hk]; cases sp <;> decide
    generalize combineSurrogates v = w at hs
    induction w with
    | nil => rfl
    | cons c w ih =>
      have ih := ih fun x hx => hs x (List.mem_cons_of_mem _ hx)
      rw [List.flatMap_cons, List.flatMap_cons]
      have : Spec.percentEncode keep false (utf8CP c ++ w.flatMap utf8CP) =
          Spec.percentEncode keep false (utf8CP c) ++ Spec.percentEncode keep false (w.flatMap utf8CP) := by
        simp [Spec.percentEncode]
      rw [this, ← ih, ← plus_encChar h43 (hs c (by simp)).1]
      simp [plusToSpace]
  unfold shown
  rw [e, percentDecode_eq]
  have h1 := decoded_encoded_length (plus := true)
    (keep := fun b => 0x20 ≤ b && b ≤ 0x7E && !(u!" \"#<>").contains b && !(sp && b == c!"'"))
    (by
      intro c hc
      have : ∀ c < 128, isHex c = true → ∀ sp : Bool, ((0x20 ≤ c && c ≤ 0x7E && !(u!" \"#<>").contains c && !(sp && c == c!"'")) : Bool) = true := by
        decide +kernel
      refine this c ?_ hc sp
      rw [isHex_iff] at hc
      omega) (by cases sp <;> decide) _ hs
  have h2 := combine_length v
  omega

theorem queryEncode_weight (sp : Bool) {v : Str} (hv : IsStr v) : weight (spOfQuery (some (Spec.queryEncode sp v))) ≤ v.length + 1 := by
  have ha : ∀ c ∈ Spec.queryEncode sp v, c < 0x80 := by
    rw [← queryEncode_eq hv sp]
    cases sp <;> exact utf8PercentEncode_ascii hv _ _
  unfold spOfQuery
  rw [Option.getD_some, utf8Encode_ascii ha]
  have h1 := weight_parseQsl (Spec.queryEncode sp v)
  have h2 := queryEncode_shown sp hv
  omega

theorem urlencode_length {l : Params} (hl : ∀ p ∈ l, IsStr p.1 ∧ IsStr p.2) (hne : l ≠ []) {C : Nat} (hC : 12 ≤ C) :
    (urlencode l).length + 1 ≤ C * weight l := by
  rw [urlencode_eq l hl]
  induction l with
  | nil => exact absurd rfl hne
  | cons p ps ih =>
    obtain ⟨n, v⟩ := p
    have ⟨hn, hv⟩ := hl (n, v) (by simp)
    have h1 := pe_length (fun b => Spec.urlencodedKeep b || b == 126) true hn hC
    have h2 := pe_length (fun b => Spec.urlencodedKeep b || b == 126) true hv hC
    have ih := ih fun q hq => hl q (List.mem_cons_of_mem _ hq)
    have ew : weight ((n, v) :: ps) = n.length + v.length + 1 + weight ps := by simp [weight]
    rw [ew, Nat.mul_add, Nat.mul_add, Nat.mul_add]
    dsimp only at h1 h2
    cases ps with
    | nil =>
      simp only [Spec.urlencodedSerialize, List.length_append, List.length_singleton]
      omega
    | cons q qs =>
      have ih := ih (by simp)
      simp only [Spec.urlencodedSerialize, List.length_append, List.length_singleton]
      omega

/-! ### Paths -/

/-- the length of a path with its slashes -/
def pathLen (p : List Str) : Nat := (p.map fun s => s.length + 1).sum

theorem pathLen_append (a b : List Str) : pathLen (a ++ b) = pathLen a + pathLen b := by simp [pathLen]

theorem pathLen_serialize (p : List Str) : (serializePath (.list p)).length = pathLen p := by
  simp [serializePath, pathLen, List.length_flatMap]

theorem pathLen_parent (file : Bool) (p : List Str) : pathLen (Spec.parent file p) ≤ pathLen p := by
  unfold Spec.parent
  split
  · omega
  · next h =>
    clear h
    induction p with
    | nil => simp
    | cons a p ih =>
      cases p with
      | nil => simp [pathLen]
      | cons b p =>
        rw [List.dropLast_cons_cons]
        have e : ∀ x : List Str, pathLen (a :: x) = a.length + 1 + pathLen x := fun x => by simp [pathLen]
        rw [e, e]
        omega

theorem segment_length (file : Bool) (out : List Str) {s : Str} (hs : IsStr s) {C : Nat} (hC : 12 ≤ C) :
    (Spec.segment file out s).length ≤ C * s.length := by
  unfold Spec.segment
  split
  · next h =>
    have h2 : Spec.isDrive s = true := h.2.2
    have : s.length = 2 := by
      unfold Spec.isDrive at h2
      split at h2
      · rfl
      · cases h2
    have h3 := Nat.mul_le_mul_right s.length hC
    simp only [List.length_append, List.length_take, List.length_singleton]
    omega
  · exact pe_length _ _ hs hC

/-- the characters of the segments, with one separator for each -/
theorem segmentsOf_sum (sp : Bool) (t : Str) : ((Spec.segmentsOf sp t).map fun s => s.length + 1).sum = t.length + 1 := by
  induction t with
  | nil => simp [Spec.segmentsOf]
  | cons c t ih =>
    unfold Spec.segmentsOf
    split
    · simp only [List.map_cons, List.sum_cons, List.length_nil, List.length_cons, ih]; omega
    · cases h : Spec.segmentsOf sp t with
      | nil => rw [h] at ih; simp at ih
      | cons s ss =>
        rw [h] at ih
        simp only [List.map_cons, List.sum_cons, List.length_cons] at ih ⊢
        omega

theorem segmentsOf_str {sp : Bool} {t : Str} (ht : IsStr t) : ∀ s ∈ Spec.segmentsOf sp t, IsStr s := by
  induction t with
  | nil => intro s hs; simp [Spec.segmentsOf] at hs; subst hs; intro c hc; cases hc
  | cons c t ih =>
    have ih := ih fun x hx => ht x (List.mem_cons_of_mem _ hx)
    unfold Spec.segmentsOf
    split
    · intro s hs
      rcases List.mem_cons.1 hs with rfl | hs
      · intro c hc; cases hc
      · exact ih s hs
    · cases h : Spec.segmentsOf sp t with
      | nil =>
        intro s hs
        simp only [List.mem_singleton] at hs
        subst hs
        intro x hx
        simp only [List.mem_singleton] at hx
        subst hx
        exact ht _ (by simp)
      | cons s0 ss =>
        rw [h] at ih
        intro s hs
        rcases List.mem_cons.1 hs with rfl | hs
        · intro x hx
          rcases List.mem_cons.1 hx with rfl | hx
          · exact ht _ (by simp)
          · exact ih s0 (by simp) x hx
        · exact ih s (List.mem_cons_of_mem _ hs)

theorem follow_pathLen (file : Bool) {segs : List Str} (hs : ∀ s ∈ segs, IsStr s) {C : Nat} (hC : 12 ≤ C) (out : List Str) :
    pathLen (Spec.follow file out segs) ≤ pathLen out + (segs.map fun s => C * s.length + 1).sum := by
  fun_induction Spec.follow file out segs with
  | case1 => omega
  | case2 out s h =>
    have := pathLen_parent file out
    rw [pathLen_append]
    simp [pathLen] at *
    omega
  | case3 out s h h2 => rw [pathLen_append]; simp [pathLen]
  | case4 out s h h2 =>
    have := segment_length file out (hs s (by simp)) hC
    rw [pathLen_append]
    simp [pathLen] at *
    omega
  | case5 out s t ts ih =>
    have ih := ih fun x hx => hs x (List.mem_cons_of_mem _ hx)
    simp only [List.map_cons, List.sum_cons] at ih ⊢
    have h1 : pathLen (if Spec.doubleDot s then Spec.parent file out else if Spec.singleDot s then out else out ++ [Spec.segment file out s]) ≤
        pathLen out + (C * s.length + 1) := by
      split
      · have := pathLen_parent file out; omega
      · split
        · omega
        · have := segment_length file out (hs s (by simp)) hC
          rw [pathLen_append]
          simp [pathLen] at *
          omega
    omega

theorem sum_scale {C : Nat} (hC : 1 ≤ C) (l : List Str) : (l.map fun s => C * s.length + 1).sum + C ≤ C * (l.map fun s => s.length + 1).sum + C ∧
    (l ≠ [] → (l.map fun s => C * s.length + 1).sum + C ≤ C * (l.map fun s => s.length + 1).sum + 1) := by
  induction l with
  | nil => simp
  | cons a l ih =>
    simp only [List.map_cons, List.sum_cons, Nat.mul_add]
    refine ⟨by omega, fun _ => ?_⟩
    omega

theorem followed_length (file sp : Bool) {t : Str} (ht : IsStr t) {C : Nat} (hC : 12 ≤ C) (out : List Str) :
    pathLen (Spec.follow file out (Spec.segmentsOf sp t)) ≤ pathLen out + C * t.length + 1 := by
  have h1 := follow_pathLen file (segmentsOf_str (sp := sp) ht) hC out
  have h2 := (sum_scale (by omega : 1 ≤ C) (Spec.segmentsOf sp t)).2 (by
    intro h
    have := segmentsOf_sum sp t
    rw [h] at this
    simp at this)
  rw [segmentsOf_sum, Nat.mul_add] at h2
  omega

theorem pathOf_length (sc : Str) {t : Str} (ht : IsStr t) {C : Nat} (hC : 12 ≤ C) : pathLen (Spec.pathOf sc t) ≤ C * t.length + 1 := by
  cases t with
  | nil =>
    show pathLen (if Spec.isSpecial sc then [[]] else []) ≤ _
    split <;> simp [pathLen]
  | cons c t =>
    have := followed_length (Spec.isFile sc) (Spec.isSpecial sc) (fun x hx => ht x (List.mem_cons_of_mem c hx)) hC []
    show pathLen (Spec.follow _ _ _) ≤ _
    rw [List.length_cons, Nat.mul_add]
    simp only [pathLen, List.map_nil, List.sum_nil] at this ⊢
    omega

/-! ### Hosts -/

theorem v6Out_length (compress : Option Nat) {a : List Nat} (ha : ∀ v ∈ a, v < 65536) (i : Nat) (ig : Bool) (out : Str) :
    (v6Out compress a i ig out).length ≤ out.length + 5 * a.length := by
  fun_induction v6Out compress a i ig out with
  | case1 => simp
  | case2 v vs i ig out h ih =>
    have ih := ih fun x hx => ha x (List.mem_cons_of_mem _ hx)
    simp only [List.length_cons]; omega
  | case3 v vs i ig out h h2 ih =>
    have ih := ih fun x hx => ha x (List.mem_cons_of_mem _ hx)
    have : (if i = 0 then u!"::" else u!":").length ≤ 2 := by split <;> decide
    simp only [List.length_cons, List.length_append] at *
    omega
  | case4 v vs i ig out h h2 ih =>
    have ih := ih fun x hx => ha x (List.mem_cons_of_mem _ hx)
    have := natHex_length (n := v) (k := 4) (ha v (by simp)) (by decide)
    have : (if i ≠ 7 then u!":" else []).length ≤ 1 := by split <;> decide
    simp only [List.length_cons, List.length_append] at *
    omega

theorem ipv6Serialize_length {a : List Nat} (h : Spec.IsV6 a) : (ipv6Serialize a).length ≤ 40 := by
  have := v6Out_length (v6FindCompress a 0 none none 1 0) h.2 0 false []
  rw [h.1] at this
  simpa [ipv6Serialize] using this

theorem ipv4Serialize_length (n : Nat) : (ipv4Serialize n).length ≤ 15 := by
  unfold ipv4Serialize
  simp only [ipv4SerLoop, joinWith, List.length_append, List.length_singleton]
  have h : ∀ m, (natDec (m % 256)).length ≤ 3 := fun m => natDec_length (k := 3) (by omega) (by decide)
  have h1 := h n
  have h2 := h (n / 256)
  have h3 := h (n / 256 / 256)
  have h4 := h (n / 256 / 256 / 256)
  have e : List.length u!"." = 1 := rfl
  omega

theorem ipv6Parse_short (env : Env) {x : Str} (h : x.length ≤ 1) (a : List Nat) (log : Log) : ipv6Parse env x ≠ ⟨.ok a, log⟩ := by
  have key : ∀ st : V6, st.compress = none → st.pieceIndex = 1 → ∀ b, v6Finish st ≠ ⟨.ok a, b⟩ := by
    intro st h1 h2 b
    simp [v6Finish, h1, h2, Res.err]
  match x, h with
  | [], _ => simp [ipv6Parse, v6Run, v6Loop, v6Piece, v6Finish, Res.ok, Res.err]
  | [c], _ =>
    by_cases hc : c = 58
    · subst hc; simp [ipv6Parse, Res.err]
    · have e : ipv6Parse env [c] = v6Run env [c] {} := by
        unfold ipv6Parse
        split
        · rename_i h'; cases h'
        · rename_i h'; cases h'; exact absurd rfl hc
        · rfl
      rw [e]
      have e2 : v6Loop env [c] {} = v6Piece env { piece := [c] } false := by
        simp [v6Loop, hc]
      unfold v6Run
      rw [e2]
      have e3 : ∀ st log, v6Piece env { piece := [c] } false = ⟨.ok st, log⟩ → st.compress = none ∧ st.pieceIndex = 1 := by
        intro st log hst
        unfold v6Piece at hst
        rw [if_neg (by simp)] at hst
        by_cases hd : c = 46
        · subst hd
          have : v6IPv4 env { piece := [46] } false = .err .ipv6Parse [.ev .ipv4InIPv6InvalidCodePoint] := by
            unfold v6IPv4
            rw [if_neg (by simp)]
            dsimp only
            rw [if_pos (by decide)]
          rw [if_neg (by decide), this] at hst
          simp [Res.err] at hst
        · rw [if_pos (by simp; omega)] at hst
          split at hst
          · simp [Res.err] at hst
          · cases hp : pyInt env 16 [c] with
            | none => simp [hp, Res.err] at hst
            | some v =>
              simp [hp, Res.ok] at hst
              rw [← hst.1]
              exact ⟨rfl, rfl⟩
      cases hv : v6Piece env { piece := [c] } false with
      | mk r lg =>
        cases r with
        | error e => simp [Res.err]
        | ok st => exact key st (e3 st lg hv).1 (e3 st lg hv).2 log

/-- the host parser lengthens a text at most `C` times, apart from "0" -/
theorem hostParse_length {env : Env} {C : Nat} (hC : 12 ≤ C)
    (hi : ∀ d out errs, IsStr d → env.nameToAscii false d = .ok out errs → out.length ≤ C * d.length) {t : Str} (ht : IsStr t)
    {b : Bool} {h : Host} (hh : (hostParse env t b).res = .ok h) : (hostSerialize h).length ≤ C * t.length + 3 := by
  have h12 := Nat.mul_le_mul_right t.length hC
  unfold hostParse at hh
  cases t with
  | nil => cases hh; simp [hostSerialize]
  | cons h0 tl =>
    dsimp only at hh
    by_cases h1 : h0 = 91
    · rw [if_pos h1] at hh
      split at hh
      · cases hh
      · cases hp : ipv6Parse env tl.dropLast with
        | mk r log =>
          rw [hp] at hh
          cases r with
          | error e => cases hh
          | ok a =>
            cases hh
            have h6 := ipv6Serialize_length (ipv6Parse_length hp)
            have hl : ¬ tl.dropLast.length ≤ 1 := fun hl => ipv6Parse_short env hl a log hp
            rw [List.length_dropLast] at hl
            simp only [hostSerialize, List.length_append, List.length_cons, List.length_nil] at h12 ⊢
            omega
    · rw [if_neg h1] at hh
      by_cases hb : b = true
      · rw [if_pos hb] at hh
        unfold parseOpaqueHost at hh
        split at hh
        · rename_i hp
          split at hp
          · cases hp
          · cases hp
            cases hh
            have := upe_length safeC0 ht hC
            show (utf8PercentEncode _ safeC0).length ≤ _
            omega
        · cases hh
      · rw [if_neg hb] at hh
        cases hd : domainToAscii env (utf8Decode (stringPercentDecode (h0 :: tl))) false with
        | mk r log =>
          rw [hd] at hh
          cases r with
          | error e => cases hh
          | ok ascii =>
            dsimp only at hh
            split at hh
            · cases hh
            · split at hh
              · cases hp : ipv4Parse env ascii with
                | mk r log' =>
                  rw [hp] at hh
                  cases r with
                  | error e => cases hh
                  | ok n =>
                    cases hh
                    have := ipv4Serialize_length n
                    simp only [hostSerialize, List.length_cons] at h12 ⊢
                    omega
              · cases hh
                have hl := decName_length ht
                have : ascii.length ≤ C * (utf8Decode (stringPercentDecode (h0 :: tl))).length := by
                  unfold domainToAscii at hd
                  cases hn : env.nameToAscii false (utf8Decode (stringPercentDecode (h0 :: tl))) with
                  | failure => rw [hn] at hd; cases hd
                  | ok out errs =>
                    rw [hn] at hd
                    dsimp only at hd
                    have : ascii = out := by
                      simp only [Res.err, Res.ok] at hd
                      repeat' split at hd
                      all_goals cases hd <;> rfl
                    rw [this]
                    exact hi _ _ _ (fun c hc => (utf8Decode_isScalar _ c hc).1) hn
                have := Nat.mul_le_mul_left C hl
                show ascii.length ≤ _
                omega

end Urlstd
