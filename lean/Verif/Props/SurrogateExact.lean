/-
C64 exactly: pairs in opaque paths are the only exception.
-/
import Verif.Lemmas.SurrogateExact
import Verif.Props.Surrogate
import Verif.Props.Denote

namespace Urlstd.Props

open Spec (IsStr TabOrNewline combineSurrogates PairInFront)

theorem toScalar_tailText {t : Str} {q f : Option Str} :
    toScalar (Spec.tailText t q f) = Spec.tailText (toScalar t) (q.map toScalar) (f.map toScalar) := by
  cases q <;> cases f <;>
    simp [Spec.tailText, toScalar_append (c := 63) (by decide), toScalar_append (c := 35) (by decide)]

/-- C64, exactly: the texts give the same result, unless a pair occurs before "?" and "#" and the URL has an opaque path. -/
theorem C64_exact (env : Env) (s : Str) (hs : IsStr s) (base : Option Rec) (hb : Spec.GoodBase base) :
    (parseUrl env (combineSurrogates (s.filter fun c => ¬ TabOrNewline c)) (baseArg base)).res = (parseUrl env s (baseArg base)).res ↔
      ¬ (PairInFront (s.filter fun c => ¬ TabOrNewline c) ∧
        ∃ u t, (parseUrl env s (baseArg base)).res = .ok u ∧ u.path = .opaque t) := by
  constructor
  · rintro h ⟨hp, u, t0, hu, ht0⟩
    rw [hu] at h
    have hden := (C83_denotes env s base hs hb _).1 hu
    rw [prepared_std] at hden
    rw [← removeTabNewline_spec] at h hp
    rw [← toScalar_eq_combine _ (isStr_tabs hs)] at h
    have hpr : prepared s none = stripBoth isC0OrSpace (removeTabNewline s) := by
      show removeTabNewline (stripBoth isC0OrSpace s) = stripBoth isC0OrSpace (s.filter _)
      exact (stripBoth_filter (fun c hc => tab_c0 (by simpa using hc)) s).symm
    obtain ⟨x, y, e, hx, hy⟩ := stripBoth_cut isC0OrSpace (removeTabNewline s)
    have hc0 : ∀ c, isC0OrSpace c = true → c < 128 := fun c hc => isC0OrSpace_ascii hc
    rw [← hpr] at e
    have hsp : IsStr (prepared s none) := fun c hc => isStr_tabs hs c (by rw [e]; simp [hc])
    rcases denotes_opaque hb hden ht0 with ⟨sc, t, q, f, h1, h2, h3, h4, h5, rfl⟩ | ⟨f, h5⟩
    · have hsc : ∀ c ∈ sc ++ u!":", c < 128 := by
        obtain ⟨c, cs, rfl, hc, hcs⟩ := h1
        intro z hz
        simp only [List.cons_append, List.mem_cons, List.mem_append, List.not_mem_nil, or_false] at hz
        rcases hz with rfl | hz | rfl
        · unfold Spec.Letter at hc; omega
        · rcases hcs z hz with h | h | h | h | h
          · unfold Spec.Letter at h; omega
          · unfold Spec.Digit at h; omega
          all_goals omega
        · decide
      have hst : IsStr t := fun c hc => hsp c (by rw [h5]; simp [Spec.tailText, hc])
      have hsq : ∀ z, q = some z → IsStr z := fun z hz c hc => hsp c (by rw [h5, hz]; simp [Spec.tailText, hc])
      have hpair : HasPair t := by
        have key : ∃ rest, removeTabNewline s = (x ++ (sc ++ u!":")) ++ t ++ rest ∧ (∀ c, rest.head? = some c → c < 128) ∧
            ∀ c, rest.head? = some c → c = c!"?" ∨ c = c!"#" ∨ ∀ z ∈ rest, z < 128 := by
          refine ⟨(q.elim [] fun x => u!"?" ++ x) ++ (f.elim [] fun x => u!"#" ++ x) ++ y, ?_, ?_, ?_⟩
          · rw [e, h5]; simp [Spec.tailText]
          · cases q with
            | some q => intro c hc; cases hc; decide
            | none => cases f with
              | some f => intro c hc; cases hc; decide
              | none => intro c hc; exact hc0 c (hy c (List.mem_of_mem_head? (by simpa using hc)))
          · cases q with
            | some q => intro c hc; cases hc; exact .inl rfl
            | none => cases f with
              | some f => intro c hc; cases hc; exact .inr (.inl rfl)
              | none => intro c hc; exact .inr (.inr fun z hz => hc0 z (hy z (by simpa using hz)))
        obtain ⟨rest, k1, k2, k3⟩ := key
        rw [k1] at hp
        refine pair_between hp ?_ k2 k3
        intro c hc
        rcases List.mem_append.1 hc with hc | hc
        · exact hc0 c (hx c hc)
        · exact hsc c hc
      have hs' : IsStr (toScalar (removeTabNewline s)) := fun c hc => (toScalar_isScalar _ (isStr_tabs hs) c hc).1
      have hd : Spec.Denotes env base (Spec.dropTabs (Spec.stripC0 (toScalar (removeTabNewline s))))
          (.ok { scheme := Spec.toLower sc, path := .opaque (Spec.opaqueEncode (toScalar t))
                 query := (q.map toScalar).map (Spec.queryEncode false)
                 fragment := (f.map toScalar).map Spec.fragmentEncode }) := by
        rw [prepared_std, prepared_toScalar hs, h5, toScalar_asciiPrefix hsc, toScalar_tailText]
        refine Spec.Denotes.opaque (env := env) (base := base) sc (toScalar t) (q.map toScalar) (f.map toScalar) h1 h2 ?_ ⟨?_, ?_⟩
        · intro c hc
          cases t with
          | nil => cases hc
          | cons d r =>
            by_cases hd : d < 128
            · rw [toScalar_cons hd] at hc
              exact h3 c (by simpa using hc)
            · obtain ⟨z, w, hz, hz2⟩ := toScalar_head hst (by omega)
              rw [hz] at hc
              cases hc
              unfold Spec.Slash; omega
        · intro c hc
          constructor
          · rintro rfl; exact (h4.1 _ ((mem_toScalar (by decide) hst).1 hc)).1 rfl
          · rintro rfl; exact (h4.1 _ ((mem_toScalar (by decide) hst).1 hc)).2 rfl
        · intro z hz
          cases q with
          | none => cases hz
          | some q =>
            cases hz
            rw [mem_toScalar (by decide) (hsq q rfl)]
            exact h4.2 q rfl
      have := (C83_denotes env _ base hs' hb _).2 hd
      rw [h, Except.ok.injEq] at this
      have hpath := congrArg Rec.path this
      rw [ht0] at hpath
      injection hpath with hpath
      rw [toScalar_eq_combine _ hst] at hpath
      exact opaqueEncode_pair hpair hpath.symm
    · rw [e, h5] at hp
      obtain ⟨pre, a, b, post, e', ha, hb', hq⟩ := hp
      have hk : ∀ (x' : Str), (∀ c ∈ x', c < 128) → ∀ pre, x' ++ (u!"#" ++ f) ++ y = pre ++ a :: b :: post →
          (∀ c ∈ pre, c ≠ c!"?" ∧ c ≠ c!"#") → False := by
        intro x'
        induction x' with
        | nil =>
          intro _ pre e hq
          cases pre with
          | nil => simp at e; omega
          | cons c pre => simp at e; exact (hq c (by simp)).2 e.1.symm
        | cons z x' ih =>
          intro hz pre e hq
          cases pre with
          | nil => simp at e; have := hz z (by simp); omega
          | cons c pre =>
            simp only [List.cons_append, List.cons.injEq] at e
            exact ih (fun c hc => hz c (by simp [hc])) pre (by simpa using e.2) fun c hc => hq c (by simp [hc])
      exact hk x (fun c hc => hc0 c (hx c hc)) pre e' hq
  · intro h
    refine C64_surrogates_partial env s hs (baseArg base) .utf8 ?_
    by_cases hp : PairInFront (s.filter fun c => ¬ TabOrNewline c)
    · left
      intro u hu
      cases hpath : u.path with
      | list l => exact ⟨l, rfl⟩
      | «opaque» t => exact absurd ⟨hp, u, t, hu, hpath⟩ h
    · exact .inr hp

-- a pair behind a scheme without slash
example : (parseUrl exEnv (combineSurrogates ([0x66, 0x3A, 0xD83D, 0xDE00].filter fun c => ¬ TabOrNewline c)) (baseArg none)).res ≠
    (parseUrl exEnv [0x66, 0x3A, 0xD83D, 0xDE00] (baseArg none)).res := by
  rw [ne_eq, C64_exact exEnv _ (by decide) none (by intro b h; cases h), not_not]
  exact ⟨⟨[0x66, 0x3A], 0xD83D, 0xDE00, [], by decide, by decide, by decide, by decide⟩, _, _, C64_false.2.2, rfl⟩

end Urlstd.Props
