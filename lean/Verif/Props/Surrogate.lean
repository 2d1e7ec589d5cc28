/-
Property C64: surrogates in the input.
-/
import Verif.Lemmas.Surrogate3
import Verif.Lemmas.Reference
import Verif.Props.OwnValue

set_option linter.unusedSimpArgs false

namespace Urlstd.Props

open Spec (IsStr TabOrNewline combineSurrogates PairInFront)

/-- C64 is false: in an opaque path the two halves of a surrogate pair are encoded separately. -/
theorem C64_false :
    combineSurrogates [0x66, 0x3A, 0xD83D, 0xDE00] = [0x66, 0x3A, 0x1F600] ∧
    (parseUrl exEnv [0x66, 0x3A, 0x1F600]).res = .ok { scheme := u!"f", path := .opaque u!"%F0%9F%98%80" } ∧
    (parseUrl exEnv [0x66, 0x3A, 0xD83D, 0xDE00]).res =
      .ok { scheme := u!"f", path := .opaque u!"%EF%BF%BD%EF%BF%BD" } := by decide +kernel

theorem isStr_tabs {s : Str} (hs : IsStr s) : IsStr (removeTabNewline s) :=
  fun c hc => hs c (by unfold removeTabNewline at hc; exact (List.mem_filter.1 hc).1)

/-- C64 except for pairs in an opaque path. Parsing a text gives the result, record or exception, of parsing the
text in which every surrogate pair is replaced by the character it denotes and every other surrogate by U+FFFD (after
the tabs and newlines, which the parser skips, are removed). Missing: the URL has an opaque path and a pair occurs
before "?" and "#"; there `C64_false` shows that the claim fails. -/
theorem C64_surrogates_partial (env : Env) (s : Str) (hs : IsStr s) (base : BaseArg) (e : Encoding)
    (h : (∀ u, (parseUrl env s base e).res = .ok u → ∃ segs, u.path = .list segs) ∨
      ¬ PairInFront (s.filter fun c => ¬ TabOrNewline c)) :
    (parseUrl env (combineSurrogates (s.filter fun c => ¬ TabOrNewline c)) base e).res = (parseUrl env s base e).res := by
  rw [← removeTabNewline_spec] at h ⊢
  rw [← toScalar_eq_combine _ (isStr_tabs hs)]
  cases base with
  | none => exact basicParse_toScalar env hs none e h
  | record b => exact basicParse_toScalar env hs (some b) e h
  | str b =>
    rw [parseUrl_str, parseUrl_str] at *
    cases hb : (basicParse env b none e).toExcept with
    | error err => rfl
    | ok r => rw [hb] at h; exact basicParse_toScalar env hs (some r) e h

/-- C64 for the base. -/
theorem C64_base_surrogates_partial (env : Env) (s b : Str) (hb : IsStr b) (e : Encoding)
    (h : (∀ u, (parseUrl env b .none e).res = .ok u → ∃ segs, u.path = .list segs) ∨
      ¬ PairInFront (b.filter fun c => ¬ TabOrNewline c)) :
    (parseUrl env s (.str (combineSurrogates (b.filter fun c => ¬ TabOrNewline c))) e).res =
      (parseUrl env s (.str b) e).res := by
  rw [← removeTabNewline_spec] at h ⊢
  rw [← toScalar_eq_combine _ (isStr_tabs hb), parseUrl_str, parseUrl_str, basicParse_toScalar env hb none e h]

-- a pair in the path and in the query, an unpaired half in the fragment
example : (parseUrl exEnv (u!"http://h/" ++ [0xD83D, 0xDE00, 0x3F, 0xD83D, 0xDE00, 0x23, 0xDE00, 0xD83D])).res =
    (parseUrl exEnv (u!"http://h/" ++ [0x1F600, 0x3F, 0x1F600, 0x23, 0xFFFD, 0xFFFD])).res := by
  refine (C64_surrogates_partial exEnv (u!"http://h/" ++ [0xD83D, 0xDE00, 0x3F, 0xD83D, 0xDE00, 0x23, 0xDE00, 0xD83D])
    (by decide) .none .utf8 (.inl ?_)).symm
  intro u hu
  have : (parseUrl exEnv (u!"http://h/" ++ [0xD83D, 0xDE00, 0x3F, 0xD83D, 0xDE00, 0x23, 0xDE00, 0xD83D])).res =
      .ok { scheme := u!"http", host := some (.str u!"h"), path := .list [u!"%F0%9F%98%80"], query := some u!"%F0%9F%98%80",
            fragment := some u!"%EF%BF%BD%EF%BF%BD" } := by decide +kernel
  rw [this] at hu
  cases hu
  exact ⟨_, rfl⟩

-- an opaque path with unpaired halves, and a pair in its query
example : (parseUrl exEnv [0x66, 0x3A, 0xDE00, 0xD83D, 0x3F, 0xD83D, 0xDE00]).res =
    (parseUrl exEnv [0x66, 0x3A, 0xFFFD, 0xFFFD, 0x3F, 0x1F600]).res := by
  refine (C64_surrogates_partial exEnv [0x66, 0x3A, 0xDE00, 0xD83D, 0x3F, 0xD83D, 0xDE00] (by decide) .none .utf8
    (.inr ?_)).symm
  rintro ⟨pre, a, b, post, e, ha, hb, hp⟩
  have e' : [0x66, 0x3A, 0xDE00, 0xD83D, 0x3F, 0xD83D, 0xDE00] = pre ++ a :: b :: post := e
  match pre with
  | [] => simp at e'; omega
  | [_] => simp at e'; omega
  | [_, _] => simp at e'; omega
  | [_, _, _] => simp at e'; omega
  | [_, _, _, _] => simp at e'; omega
  | _ :: _ :: _ :: _ :: x :: _ =>
    simp only [List.cons_append, List.cons.injEq] at e'
    exact absurd e'.2.2.2.2.1.symm (hp x (by simp)).1

/-- The same for the setters: assigning an attribute a text does what assigning it the text with its surrogates
replaced does. (`href` is covered by `C64_surrogates_partial`.) -/
theorem C64_setters (env : Env) (o : URLObj) (v : Str) (hv : IsStr v) (ht : ∀ c ∈ v, ¬ TabOrNewline c) (a : Attr)
    (ha : a ≠ .href) : applyOp env o (a.set (combineSurrogates v)) = applyOp env o (a.set v) := by
  have ht' : ∀ c ∈ v, isTabNewline c = false := by
    intro c hc
    exact Bool.eq_false_iff.2 fun h => ht c hc (isTabNewline_iff.1 h)
  rw [← toScalar_eq_combine v hv]
  have hsp : ∀ (u : Rec) (w : Str) (st : PState), IsStr w → (∀ c ∈ w, isTabNewline c = false) → st ≠ .opaquePath →
      setterParse env o u (toScalar w) st = setterParse env o u w st := by
    intro u w st h1 h2 h3
    have := basicParse_toScalar_override env.quiet h1 h2 .utf8 u h3
    simp only [Prod.mk.injEq] at this
    unfold setterParse
    dsimp only
    rw [this.1, this.2]
  have hlead : ∀ c, c < 128 → dropLead c (toScalar v) = toScalar (dropLead c v) := by
    intro c hc
    rcases first_cases hv with rfl | ⟨d, r, rfl, hd, e1⟩ | ⟨d, r, y, t, rfl, hd, e1, hy⟩
    · rfl
    · rw [e1]
      unfold dropLead
      split
      · next x y e => cases e; split <;> simp_all
      · next e => cases e
    · rw [e1]
      simp only [dropLead]
      rw [if_neg (by omega), if_neg (by omega), e1]
  have hsub : ∀ c d, d ∈ dropLead c v → d ∈ v := by
    intro c d hd
    unfold dropLead at hd
    split at hd
    · split at hd
      · exact List.mem_cons_of_mem _ hd
      · exact hd
    · exact hd
  have hE : (toScalar v).isEmpty = v.isEmpty := toScalar_isEmpty hv
  cases a with
  | href => exact absurd rfl ha
  | protocol =>
    show setterParse env o o.url (toScalar v ++ u!":") .schemeStart = setterParse env o o.url (v ++ u!":") .schemeStart
    have : toScalar v ++ u!":" = toScalar (v ++ u!":") := by
      rw [toScalar_append (by decide)]; rfl
    rw [this]
    refine hsp _ _ _ ?_ ?_ (by decide)
    · intro c hc
      rcases List.mem_append.1 hc with hc | hc
      · exact hv c hc
      · simp at hc; omega
    · intro c hc
      rcases List.mem_append.1 hc with hc | hc
      · exact ht' c hc
      · simp at hc; subst hc; rfl
  | username =>
    show setUsername o (toScalar v) = setUsername o v
    unfold setUsername
    rw [encode_toScalar hv]
  | password =>
    show setPassword o (toScalar v) = setPassword o v
    unfold setPassword
    rw [encode_toScalar hv]
  | host =>
    show setHost env o (toScalar v) = setHost env o v
    unfold setHost
    rw [hsp _ _ _ hv ht' (by decide)]
  | hostname =>
    show setHostname env o (toScalar v) = setHostname env o v
    unfold setHostname
    rw [hsp _ _ _ hv ht' (by decide)]
  | port =>
    show setPort env o (toScalar v) = setPort env o v
    unfold setPort
    rw [hsp _ _ _ hv ht' (by decide), hE]
  | pathname =>
    show setPathname env o (toScalar v) = setPathname env o v
    unfold setPathname
    rw [hsp _ _ _ hv ht' (by decide)]
  | search =>
    show setSearch env o (toScalar v) = setSearch env o v
    unfold setSearch
    rw [hE, hlead _ (by decide), hsp _ _ _ (fun c hc => hv c (hsub _ _ hc)) (fun c hc => ht' c (hsub _ _ hc)) (by decide)]
  | hash =>
    show setHash env o (toScalar v) = setHash env o v
    unfold setHash
    rw [hE, hlead _ (by decide), hsp _ _ _ (fun c hc => hv c (hsub _ _ hc)) (fun c hc => ht' c (hsub _ _ hc)) (by decide)]

example : applyOp exEnv ownNull (.pathname [0xD83D, 0xDE00]) = applyOp exEnv ownNull (.pathname [0x1F600]) :=
  (C64_setters exEnv ownNull [0xD83D, 0xDE00] (by decide) (by decide) .pathname (by decide)).symm
example : (applyOp exEnv ownNull (.pathname [0xD83D, 0xDE00])).2.href = u!"foo:/%F0%9F%98%80" := by decide +kernel

end Urlstd.Props
