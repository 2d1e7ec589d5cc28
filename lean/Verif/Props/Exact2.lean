/-
C09, C36, C65, C77: the exceptions are exact.
-/
import Verif.Lemmas.Tabs
import Verif.Props.Codec
import Verif.Props.Machine
import Verif.Props.Rfc3986

namespace Urlstd.Props

open Spec (IsStr IsScalarStr Parses percentEncode urlencodedSerialize urlencodedKeep Special SameAuthority pathSerializer queryEncode
  fragmentEncode)
open Spec.Rfc (Ref Plain transform pathEncode Drive SegmentIn)

/-! ### C09 -/

theorem percentEncode_length_le {k k' : Nat → Bool} (h : ∀ b, k b = true → k' b = true) (bs : Bytes) :
    (percentEncode k' true bs).length ≤ (percentEncode k true bs).length := by
  unfold percentEncode
  induction bs with
  | nil => simp
  | cons b bs ih =>
    rw [List.flatMap_cons, List.flatMap_cons, List.length_append, List.length_append]
    refine Nat.add_le_add ?_ ih
    split
    · exact Nat.le_refl _
    · cases hk : k b with
      | true => rw [h b hk]; simp
      | false => cases k' b <;> simp [Spec.pct]

theorem percentEncode_length_lt {k k' : Nat → Bool} (h : ∀ b, k b = true → k' b = true) {bs : Bytes} {b : Nat} (hb : b ∈ bs)
    (h1 : k b = false) (h2 : k' b = true) (h3 : b ≠ 32) : (percentEncode k' true bs).length < (percentEncode k true bs).length := by
  induction bs with
  | nil => cases hb
  | cons x bs ih =>
    have hle := percentEncode_length_le h bs
    unfold percentEncode at ih hle ⊢
    rw [List.flatMap_cons, List.flatMap_cons, List.length_append, List.length_append]
    rcases List.mem_cons.1 hb with rfl | hb
    · have hsp : ¬ ((true : Bool) = true ∧ b = 32) := fun h => h3 h.2
      rw [if_neg hsp, if_neg hsp, if_pos h2, if_neg (by simp [h1])]
      have hp3 : (Spec.pct b).length = 3 := rfl
      have hp1 : ([b] : Bytes).length = 1 := rfl
      omega
    · have hx := percentEncode_length_le h [x]
      unfold percentEncode at hx
      rw [List.flatMap_cons, List.flatMap_cons, List.flatMap_nil, List.append_nil, List.flatMap_nil, List.append_nil] at hx
      have := ih hb
      omega

theorem tilde_utf8 {s : Str} (h : 126 ∈ s) : 126 ∈ Spec.utf8 s := by
  have hm : 126 ∈ Spec.combineSurrogates s := by
    fun_induction Spec.combineSurrogates s with
    | case1 => exact h
    | case2 a hs => simp at h; subst h; exact absurd hs (by decide)
    | case3 a hs => exact h
    | case4 a b rest hs ih =>
      rcases List.mem_cons.1 h with h | h
      · omega
      · rcases List.mem_cons.1 h with h | h
        · omega
        · exact List.mem_cons_of_mem _ (ih h)
    | case5 a b rest h1 h2 ih =>
      rcases List.mem_cons.1 h with h | h
      · subst h; exact absurd h2 (by decide)
      · exact List.mem_cons_of_mem _ (ih h)
    | case6 a b rest h1 h2 ih =>
      rcases List.mem_cons.1 h with h | h
      · simp [h]
      · exact List.mem_cons_of_mem _ (ih h)
  exact List.mem_flatMap.2 ⟨126, hm, by decide⟩

/-- C09, exactly: `urlencode` gives what the standard's serializer gives if and only if there is no '~'; and otherwise it is shorter. -/
theorem C09_exact (pairs : List (Str × Str)) (h : ∀ p ∈ pairs, IsStr p.1 ∧ IsStr p.2) :
    urlencode pairs = urlencodedSerialize urlencodedKeep pairs ↔ ∀ p ∈ pairs, c!"~" ∉ p.1 ∧ c!"~" ∉ p.2 := by
  constructor
  · intro he
    rw [C09_urlencode_exact pairs h] at he
    have hk : ∀ b, urlencodedKeep b = true → (urlencodedKeep b || b == 126) = true := fun b hb => by rw [hb]; rfl
    have key : ∀ s : Str, 126 ∈ s → (percentEncode (fun b => urlencodedKeep b || b == 126) true (Spec.utf8 s)).length <
        (percentEncode urlencodedKeep true (Spec.utf8 s)).length :=
      fun s hs => percentEncode_length_lt hk (tilde_utf8 hs) (by decide) (by decide) (by decide)
    have le : ∀ s : Str, (percentEncode (fun b => urlencodedKeep b || b == 126) true (Spec.utf8 s)).length ≤
        (percentEncode urlencodedKeep true (Spec.utf8 s)).length := fun s => percentEncode_length_le hk _
    have all : (urlencodedSerialize (fun b => urlencodedKeep b || b == 126) pairs).length ≤
          (urlencodedSerialize urlencodedKeep pairs).length ∧
        ((∃ p ∈ pairs, 126 ∈ p.1 ∨ 126 ∈ p.2) → (urlencodedSerialize (fun b => urlencodedKeep b || b == 126) pairs).length <
          (urlencodedSerialize urlencodedKeep pairs).length) := by
      clear h he
      induction pairs with
      | nil => exact ⟨Nat.le_refl _, fun ⟨p, hp, _⟩ => by cases hp⟩
      | cons p ps ih =>
        have l1 := le p.1
        have l2 := le p.2
        have hone : (126 ∈ p.1 ∨ 126 ∈ p.2) →
            (percentEncode (fun b => urlencodedKeep b || b == 126) true (Spec.utf8 p.1)).length +
              (percentEncode (fun b => urlencodedKeep b || b == 126) true (Spec.utf8 p.2)).length <
            (percentEncode urlencodedKeep true (Spec.utf8 p.1)).length + (percentEncode urlencodedKeep true (Spec.utf8 p.2)).length := by
          rintro (h1 | h1)
          · have := key p.1 h1; omega
          · have := key p.2 h1; omega
        cases ps with
        | nil =>
          simp only [urlencodedSerialize, List.length_append, List.length_cons, List.length_nil]
          refine ⟨by omega, fun ⟨q, hq, h1⟩ => ?_⟩
          simp only [List.mem_singleton] at hq
          subst hq
          have := hone h1
          omega
        | cons q qs =>
          simp only [urlencodedSerialize, List.length_append, List.length_cons, List.length_nil] at ih ⊢
          obtain ⟨i1, i2⟩ := ih
          refine ⟨by omega, fun ⟨r, hr, h1⟩ => ?_⟩
          rcases List.mem_cons.1 hr with rfl | hr
          · have := hone h1
            omega
          · have := i2 ⟨r, hr, h1⟩
            omega
    intro p hp
    refine ⟨fun h1 => ?_, fun h1 => ?_⟩
    · have := all.2 ⟨p, hp, .inl h1⟩
      rw [he] at this
      exact absurd this (Nat.lt_irrefl _)
    · have := all.2 ⟨p, hp, .inr h1⟩
      rw [he] at this
      exact absurd this (Nat.lt_irrefl _)
  · exact C09_urlencode_is_standard_partial pairs h

example : urlencode [(u!"a", u!"b c")] = urlencodedSerialize urlencodedKeep [(u!"a", u!"b c")] :=
  (C09_exact _ (by decide)).2 (by decide)
example : urlencode [(u!"a", u!"b"), (u!"~x", u!"é")] ≠ urlencodedSerialize urlencodedKeep [(u!"a", u!"b"), (u!"~x", u!"é")] :=
  fun h => absurd ((C09_exact _ (by decide)).1 h) (by decide)

/-! ### C36 -/

/-- C36, exactly: against a parsed base whose path is not opaque, the empty reference is the base without its fragment if and only if
the scheme is not "file". -/
theorem C36_exact (env : Env) (b : Rec) (hb : Parsed env b) (e : Encoding) (hp : ∀ t, b.path ≠ .opaque t) :
    (parseUrl env [] (.record b) e).res = .ok { b with fragment := none } ↔ b.scheme ≠ u!"file" := by
  refine ⟨fun h hf => ?_, C36_empty_reference_partial env b e hp⟩
  obtain ⟨segs, h1, h2⟩ := C36_empty_reference_file env b hb e hf
  rw [h] at h2
  injection h2 with h2
  have := congrArg Rec.path h2
  rw [h1] at this
  injection this with this
  have := congrArg List.length this
  simp at this

example : (parseUrl exEnv [] (.record exFile)).res ≠ .ok { exFile with fragment := none } :=
  fun h => (C36_exact exEnv exFile exFile_parsed .utf8 (fun t h => by cases h)).1 h rfl

/-! ### C65 -/

/-- C65, exactly (for texts that are not longer than the interpreter's limit for digits, and encodings that do not spell characters as
"&#…"): `parse_url` ends as the standard's state machine ends if and only if the text is not an empty reference, or a bare "file:",
against a "file" URL. -/
theorem C65_exact_partial (env : Env) (base : Option Rec) (hb : ∀ b, base = some b → Parsed env b) (s : Str)
    (hs : IsScalarStr s) (e : Encoding) (he : EncOK e) (hn : NoRef e) (hl : ¬ LongInput env s.length) :
    ((∀ u, (parseUrl env s (baseArg base) e).res = .ok u ↔ Parses (hostOf env) s base e (.ok u)) ∧
      ((∃ err, (parseUrl env s (baseArg base) e).res = .error err ∧ err.isURLParseError = true) ↔
        ∃ u, Parses (hostOf env) s base e (.failure u))) ↔
    ∀ b, base = some b → b.scheme = u!"file" → ¬ BareFile s := by
  refine ⟨fun h b hbase hf hbare => ?_, C65_parser_partial env base hb s hs e he hn hl⟩
  subst hbase
  obtain ⟨segs, h1, h2, h3⟩ := C65_bare_file env b (hb b rfl) hf s hbare e
  have h4 := (h.1 _).2 h2
  have e1 : (parseUrl env s (baseArg (some b)) e).res = (parseUrl env s (.record b) e).res := rfl
  rw [e1, h3] at h4
  injection h4 with h4
  have := congrArg Rec.path h4
  rw [h1] at this
  injection this with this
  have := congrArg List.length this
  simp at this

local instance (s : Str) : Decidable (BareFile s) := inferInstanceAs (Decidable (_ ∨ _))

/-- the condition holds: a text that is not bare, and a bare text against a base of another scheme -/
example : ∀ b, some exFile = some b → b.scheme = u!"file" → ¬ BareFile u!"x" := fun _ _ _ => by decide
example : ∀ b, some exRecord = some b → b.scheme = u!"file" → ¬ BareFile [] := by
  rintro b ⟨⟩ h
  exact absurd h (by decide)
/-- the condition fails -/
example : ¬ ∀ b, some exFile = some b → b.scheme = u!"file" → ¬ BareFile u!" fi\tLE: " := fun h => h exFile rfl rfl (by decide)

/-! ### C77 -/

/-- C77, exactly: under the conditions of `C77_resolution_partial` on drive letters, the only reference that is not resolved as in RFC
3986 is the empty one against a "file" URL. -/
theorem C77_exact (env : Env) (b : Rec) (hb : Parsed env b) (hp : ∀ t, b.path ≠ .opaque t) (r : Ref)
    (hfile : b.scheme = u!"file" → (∀ s l, b.path = .list (s :: l) → ¬ Drive s) ∧ ∀ s, SegmentIn r.path s → ¬ Drive s)
    (hr : Plain (Special b.scheme) r) (special : Bool) (hsp : special = true ↔ Special b.scheme) :
    (∃ u, (parseUrl env r.text (.record b)).res = .ok u ∧ SameAuthority u b ∧
      Ref.mk (pathSerializer u.path) u.query u.fragment =
        transform b.host.isSome (pathSerializer b.path) b.query
          ⟨pathEncode r.path, r.query.map (queryEncode special), r.fragment.map fragmentEncode⟩) ↔
    ¬ (b.scheme = u!"file" ∧ r.text = []) := by
  constructor
  · rintro ⟨u, h1, -, h2⟩ ⟨hf, ht⟩
    obtain ⟨segs, h3, h4⟩ := C36_empty_reference_file env b hb .utf8 hf
    rw [ht, h4] at h1
    cases h1
    obtain ⟨p, q, f⟩ := r
    have ht' := ht
    rw [ref_text] at ht'
    have hp0 : p = [] := (List.append_eq_nil_iff.1 ht').1
    have ht2 : tailStr q f = [] := (List.append_eq_nil_iff.1 ht').2
    have hq0 : q = none := by cases q <;> cases f <;> simp [tailStr] at ht2 ⊢
    have hf0 : f = none := by cases q <;> cases f <;> simp [tailStr] at ht2 ⊢
    subst hp0 hq0 hf0
    have e0 : pathEncode [] = [] := rfl
    rw [e0] at h2
    have h5 := congrArg Ref.path h2
    simp only [transform, Option.map_none] at h5
    rw [h3] at h5
    have h6 := congrArg List.length h5
    have h7 : ∀ l : List Str, (Spec.segmentsText (l ++ [[]])).length = (Spec.segmentsText l).length + 1 := by
      intro l
      induction l with
      | nil => rfl
      | cons a l ih =>
        simp only [List.cons_append, Spec.segmentsText, List.nil_append, List.length_cons, List.length_append, ih]
        omega
    simp [pathSerializer, h7] at h6
  · intro hn
    exact C77_resolution_partial env b hb hp r (fun hf => ⟨fun ht => hn ⟨hf, ht⟩, hfile hf⟩) hr special hsp

/-- the empty reference against "file:///a/b?q" -/
example : (parseUrl exEnv (Ref.mk [] none none).text (.record exFile)).res.map (pathSerializer ·.path) = .ok u!"/a/b/" ∧
    (transform true (pathSerializer exFile.path) none ⟨[], none, none⟩).path = u!"/a/b" := by
  decide +kernel

end Urlstd.Props
