/-
A surrogate pair in an opaque path always makes a difference.
-/
import Verif.Lemmas.Surrogate3
import Verif.Lemmas.Size2

set_option linter.unusedSimpArgs false
set_option linter.unusedVariables false

namespace Urlstd

open Spec (IsStr Surrogate combineSurrogates PairInFront opaqueEncode)

/-- there is a pair in the text -/
def HasPair (s : Str) : Prop :=
  ∃ x y a b, s = x ++ a :: b :: y ∧ (0xD800 ≤ a ∧ a ≤ 0xDBFF) ∧ (0xDC00 ≤ b ∧ b ≤ 0xDFFF)

theorem HasPair.tail {c : Nat} {r : Str} (h : HasPair (c :: r)) (hc : ∀ b t, r = b :: t → ¬ ((0xD800 ≤ c ∧ c ≤ 0xDBFF) ∧ (0xDC00 ≤ b ∧ b ≤ 0xDFFF))) :
    HasPair r := by
  obtain ⟨x, y, a, b, e, ha, hb⟩ := h
  cases x with
  | nil =>
    simp only [List.nil_append, List.cons.injEq] at e
    exact absurd ⟨by rw [e.1]; exact ha, hb⟩ (hc b y e.2)
  | cons d x =>
    simp only [List.cons_append, List.cons.injEq] at e
    exact ⟨x, y, a, b, e.2, ha, hb⟩

theorem combine_shorter (s : Str) (h : HasPair s) : (combineSurrogates s).length < s.length := by
  fun_induction combineSurrogates s with
  | case1 => obtain ⟨x, y, a, b, e, -⟩ := h; cases x <;> cases e
  | case2 a h' => obtain ⟨y, z, a', b', e, -⟩ := h.tail (by simp); cases y <;> cases e
  | case3 a h' => obtain ⟨y, z, a', b', e, -⟩ := h.tail (by simp); cases y <;> cases e
  | case4 a b rest h' ih =>
    have := combine_length rest
    simp only [List.length_cons]; omega
  | case5 a b rest h1 h2 ih =>
    have := ih (h.tail (by intro b' t e; cases e; exact h1))
    simp only [List.length_cons] at *; omega
  | case6 a b rest h1 h2 ih =>
    have := ih (h.tail (by intro b' t e; cases e; exact h1))
    simp only [List.length_cons] at *; omega

/-- the length of a character in an opaque path -/
def opaqueLen (c : Nat) : Nat := (opaqueEncode [c]).length

theorem opaqueEncode_cons (c : Nat) (r : Str) : (opaqueEncode (c :: r)).length = opaqueLen c + (opaqueEncode r).length := by
  unfold opaqueLen opaqueEncode
  simp

theorem opaqueLen_surrogate {c : Nat} (h : Surrogate c) : opaqueLen c = 9 := by
  unfold opaqueLen opaqueEncode Spec.utf8
  simp only [List.flatMap_cons, List.flatMap_nil, List.append_nil]
  rw [combineSurrogates, if_pos h]
  decide

theorem opaqueLen_lone : opaqueLen 0xFFFD = 9 := by decide

theorem opaqueLen_big {c : Nat} (h : 0x10000 ≤ c) : opaqueLen c = 12 := by
  unfold opaqueLen opaqueEncode Spec.utf8
  simp only [List.flatMap_cons, List.flatMap_nil, List.append_nil]
  rw [combineSurrogates, if_neg (by unfold Surrogate; omega)]
  simp only [List.flatMap_cons, List.flatMap_nil, List.append_nil]
  unfold Spec.utf8CP
  rw [if_neg (by omega), if_neg (by omega), if_neg (by omega)]
  have key : ∀ b, 128 ≤ b → (if false = true ∧ b = 0x20 then [c!"+"] else if (!Spec.c0Set b) = true then [b] else Spec.pct b).length = 3 := by
    intro b hb
    rw [if_neg (by simp), if_neg (by simp [Spec.c0Set]; omega)]; rfl
  unfold Spec.percentEncode
  simp only [List.flatMap_cons, List.flatMap_nil, List.append_nil, List.length_append]
  rw [key _ (by omega), key _ (by omega), key _ (by omega), key _ (by omega)]

theorem opaque_length (s : Str) :
    (opaqueEncode s).length = (opaqueEncode (combineSurrogates s)).length + 6 * (s.length - (combineSurrogates s).length) := by
  fun_induction combineSurrogates s with
  | case1 => rfl
  | case2 a h => rw [opaqueEncode_cons, opaqueEncode_cons, opaqueLen_surrogate h, opaqueLen_lone]; simp
  | case3 a h => simp
  | case4 a b rest h ih =>
    have := combine_length rest
    rw [opaqueEncode_cons, opaqueEncode_cons, opaqueEncode_cons, opaqueLen_surrogate (by unfold Surrogate; omega),
      opaqueLen_surrogate (by unfold Surrogate; omega), opaqueLen_big (by omega), ih]
    simp only [List.length_cons]
    omega
  | case5 a b rest h1 h2 ih =>
    rw [opaqueEncode_cons, ih, opaqueEncode_cons, opaqueLen_surrogate h2, opaqueLen_lone]
    simp only [List.length_cons]
    omega
  | case6 a b rest h1 h2 ih =>
    rw [opaqueEncode_cons, ih, opaqueEncode_cons]
    simp only [List.length_cons]
    omega

theorem opaqueEncode_pair {s : Str} (h : HasPair s) : opaqueEncode (combineSurrogates s) ≠ opaqueEncode s := by
  intro e
  have h1 := opaque_length s
  have h2 := combine_shorter s h
  rw [e] at h1
  omega

/-- where an opaque path comes from -/
theorem denotes_opaque {env : Env} {base : Option Rec} {r : Str} {u : Rec} {p : Str} (hb : Spec.GoodBase base)
    (h : Spec.Denotes env base r (.ok u)) (hp : u.path = .opaque p) :
    (∃ sc t q f, Spec.SchemeText sc ∧ Spec.isSpecial (Spec.toLower sc) = false ∧ Spec.NoSlash false t ∧ Spec.TailOK t q ∧
      r = sc ++ u!":" ++ Spec.tailText t q f ∧ p = opaqueEncode t) ∨ ∃ f, r = u!"#" ++ f := by
  have parts : ∀ sc (q : Spec.Parts), q.url env sc ≠ .ok u := by
    intro sc q hq
    unfold Spec.Parts.url at hq
    split at hq
    · cases hq
    · split at hq
      · cases hq
      · cases hq
      · cases hq; cases hp
  have file : ∀ r, ¬ Spec.FileText env base r (.ok u) := by
    intro r hr
    generalize hx : Except.ok u = x at hr
    cases hr <;> cases hx <;> try cases hp
    rename_i b _ _ hbase hsc _ _
    obtain ⟨l, hl⟩ := hb b hbase (by rw [hsc]; decide)
    rw [hl] at hp; cases hp
  have rel : ∀ b r l, b.path = .list l → ¬ Spec.Relative env b r (.ok u) := by
    intro b r l hl hr
    generalize hx : (Except.ok u : Except Err Rec) = x at hr
    cases hr with
    | same => cases hx; dsimp only at hp; rw [hl] at hp; cases hp
    | path => cases hx; cases hp
    | rooted => cases hx; cases hp
    | authority => exact parts _ _ hx.symm
  generalize hx : Except.ok u = x at h
  cases h with
  | file _ _ _ _ _ h => subst hx; exact absurd h (file _)
  | special => exact absurd hx.symm (parts _ _)
  | specialSlashes => exact absurd hx.symm (parts _ _)
  | sameScheme _ _ b _ _ hs _ hbase hsc _ h =>
    subst hx
    obtain ⟨l, hl⟩ := hb b hbase (by rw [hsc]; exact hs)
    exact absurd h (rel _ _ l hl)
  | authority => exact absurd hx.symm (parts _ _)
  | rooted => cases hx; cases hp
  | «opaque» sc t q f h1 h2 h3 h4 =>
    cases hx
    injection hp with hp
    exact .inl ⟨sc, t, q, f, h1, h2, h3, h4, rfl, hp.symm⟩
  | noBase => cases hx
  | opaqueFragment f => exact .inr ⟨f, rfl⟩
  | opaqueOther => cases hx
  | fileBase _ _ _ _ _ _ _ _ h => subst hx; exact absurd h (file _)
  | reference _ b l _ _ _ hl _ h => subst hx; exact absurd h (rel _ _ l hl)

theorem stripBoth_cut (p : Nat → Bool) (s : Str) :
    ∃ a b, s = a ++ stripBoth p s ++ b ∧ (∀ c ∈ a, p c = true) ∧ ∀ c ∈ b, p c = true := by
  obtain ⟨x, y, e, h1, h2, h3, h4⟩ := span_split p s
  obtain ⟨a, b, e', h1', h2', h3'⟩ := stripRight_cut p y
  refine ⟨x, b, ?_, h3, h2'⟩
  rw [stripBoth_eq, h2, h1', List.append_assoc, ← e', ← e]

/-- a pair in front that is not among the characters in front of `t` or behind it is in `t` -/
theorem pair_between {pre t rest : Str} (h : PairInFront (pre ++ t ++ rest)) (hpre : ∀ c ∈ pre, c < 128)
    (hrest : ∀ c, rest.head? = some c → c < 128)
    (hend : ∀ c, rest.head? = some c → c = c!"?" ∨ c = c!"#" ∨ ∀ x ∈ rest, x < 128) : HasPair t := by
  obtain ⟨x, a, b, y, e, ha, hb, hx⟩ := h
  rw [List.append_assoc, List.append_eq_append_iff] at e
  have key : ∀ z, t ++ rest = z ++ a :: b :: y → (∀ c ∈ z, c ≠ c!"?" ∧ c ≠ c!"#") → HasPair t := by
    intro z hz hzq
    rw [List.append_eq_append_iff] at hz
    rcases hz with ⟨w, h1, h2⟩ | ⟨w, h1, h2⟩
    · exfalso
      cases rest with
      | nil => cases w <;> cases h2
      | cons r0 rest =>
        cases w with
        | nil =>
          cases h2
          have := hrest a rfl; omega
        | cons w0 w =>
          simp only [List.cons_append, List.cons.injEq] at h2
          obtain ⟨rfl, h2⟩ := h2
          rcases hend r0 rfl with h | h | h
          · exact (hzq r0 (by rw [h1]; simp)).1 h
          · exact (hzq r0 (by rw [h1]; simp)).2 h
          · have := h a (by rw [h2]; simp); omega
    · cases w with
      | nil =>
        simp only [List.nil_append] at h2
        have := hrest a (by rw [← h2]; rfl); omega
      | cons w0 w =>
        simp only [List.cons_append, List.cons.injEq] at h2
        obtain ⟨rfl, h2⟩ := h2
        cases w with
        | nil =>
          simp only [List.nil_append] at h2
          have := hrest b (by rw [← h2]; rfl); omega
        | cons w1 w =>
          simp only [List.cons_append, List.cons.injEq] at h2
          obtain ⟨rfl, h2⟩ := h2
          exact ⟨z, w, a, b, h1, ha, hb⟩
  rcases e with ⟨w, h1, h2⟩ | ⟨w, h1, h2⟩
  · exact key w h2 fun c hc => hx c (by rw [h1]; simp [hc])
  · cases w with
    | nil => exact key [] (by simpa using h2.symm) (by simp)
    | cons w0 w =>
      simp only [List.cons_append, List.cons.injEq] at h2
      have := hpre w0 (by rw [h1]; simp)
      omega

end Urlstd
