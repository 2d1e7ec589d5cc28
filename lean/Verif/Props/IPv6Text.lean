/-
Property C96: the texts of IPv6 addresses.
-/
import Verif.Lemmas.IPv6f
import Verif.Props.IPv6

namespace Urlstd.Props

open Spec (V6Item V6Groups V6Side V6Text IsV6)

theorem val_ok {α : Type} {r : Res α} {a : α} : r.val = some a ↔ r.res = .ok a := by
  unfold Res.val
  cases r.res <;> simp

/-- C96. IPv6 parsing accepts the texts of the grammar and no others, with the value the grammar gives them. -/
theorem C96_grammar (env : Env) (he : EnvOK env) (s : Str) (a : List Nat) : (ipv6Parse env s).res = .ok a ↔ V6Text s a := by
  rw [← val_ok]; exact ipv6Parse_iff he

/-- C96. A text has one value by the grammar, and this is eight pieces. -/
theorem C96_value (s : Str) (a b : List Nat) (ha : V6Text s a) : IsV6 a ∧ (V6Text s b → a = b) := by
  have h := (C96_grammar exEnv (.inr (by decide)) s a).2 ha
  constructor
  · have := ipv6Parse_post exEnv s
    rw [h] at this
    exact this
  · intro hb
    rw [(C96_grammar exEnv (.inr (by decide)) s b).2 hb] at h
    injection h with h
    exact h.symm

/-- C96. These texts in brackets are the hosts that are IPv6 addresses, whatever the scheme. -/
theorem C96_host (env : Env) (he : EnvOK env) (s : Str) (isOpaque : Bool) (a : List Nat) :
    (hostParse env s isOpaque).res = .ok (.ipv6 a) ↔ ∃ t, s = u!"[" ++ t ++ u!"]" ∧ V6Text t a := by
  cases s with
  | nil =>
    constructor
    · intro h; cases h
    · rintro ⟨t, h, -⟩; cases h
  | cons c t =>
    by_cases hc : c = 91
    · subst hc
      unfold hostParse
      dsimp only
      rw [if_pos rfl]
      by_cases hl : (91 :: t).getLastD 0 = 93
      · rw [if_neg (by simpa using hl)]
        obtain ⟨u, rfl⟩ : ∃ u, t = u ++ [93] := by
          cases ht : t.getLast? with
          | none =>
            rw [List.getLast?_eq_none_iff] at ht
            subst ht
            cases hl
          | some d =>
            obtain ⟨u, rfl⟩ := List.getLast?_eq_some_iff.1 ht
            have : d = 93 := by
              rw [← List.cons_append, List.getLastD_concat] at hl; exact hl
            exact ⟨u, by rw [this]⟩
        rw [List.dropLast_concat]
        rw [show (∃ t, 91 :: (u ++ [93]) = u!"[" ++ t ++ u!"]" ∧ V6Text t a) ↔ V6Text u a from
          ⟨fun ⟨x, h, hx⟩ => by simp at h; rwa [h], fun h => ⟨u, by simp, h⟩⟩]
        rw [← C96_grammar env he]
        rcases hr : ipv6Parse env u with ⟨r, log⟩
        cases r with
        | error e => simp [Res.err]
        | ok b => simp [Res.ok]
      · rw [if_pos hl]
        constructor
        · intro h; cases h
        · rintro ⟨x, h, -⟩
          exfalso
          apply hl
          rw [h, List.getLastD_concat]
    · constructor
      · intro h
        exfalso
        unfold hostParse at h
        dsimp only at h
        rw [if_neg hc] at h
        split at h
        · split at h <;> cases h
        · split at h
          · cases h
          · split at h
            · cases h
            · split at h
              · split at h <;> cases h
              · cases h
      · rintro ⟨x, h, -⟩
        injection h with h
        exact absurd h hc

/-- C96. The standard's addresses are those of the grammar without a ":::" at the start and without a dot before a colon - unless the
text is seven groups and "::", which the standard accepts too. -/
theorem C96_standard (s : Str) (a : List Nat)
    (h7 : ¬ ∃ ps : List Str, ps.length = 7 ∧ (∀ p ∈ ps, 1 ≤ p.length ∧ p.length ≤ 4 ∧ ∀ c ∈ p, Spec.isHex c = true) ∧
      s = (ps.flatMap (· ++ u!":")) ++ u!":") :
    Spec.ipv6Parse s = some a ↔
      V6Text s a ∧ (¬ ∃ t, s = u!":::" ++ t) ∧ ¬ ∃ x y, s = x ++ c!"." :: y ∧ c!":" ∈ y := by
  obtain ⟨h1, h2, -⟩ := C15_exact exEnv (.inr (by decide)) s
  rw [← C96_grammar exEnv (.inr (by decide)), ← val_ok]
  by_cases hd : (∃ t, s = u!":::" ++ t) ∨ ∃ x y, s = x ++ c!"." :: y ∧ c!":" ∈ y
  · rw [h2 hd]
    constructor
    · intro h; cases h
    · rintro ⟨-, h3, h4⟩; exact absurd hd (not_or.2 ⟨h3, h4⟩)
  · have e : (ipv6Parse exEnv s).val = Spec.ipv6Parse s := Classical.byContradiction fun hne => by
      rcases h1.1 hne with ⟨h, -⟩ | h
      · exact hd h
      · exact h7 h
    rw [e]
    exact ⟨fun h => ⟨h, fun h3 => hd (.inl h3), fun h3 => hd (.inr h3)⟩, fun h => h.1⟩

-- one text of each form
example : V6Text u!"1:2::127.0.0.1:a" [1, 2, 0, 0, 0, 0x7f00, 1, 0xa] ∧ V6Text u!":::ABC" [0, 0, 0, 0, 0, 0, 0, 0xabc] ∧
    V6Text u!"1:2:3:4:5:6:1.2.3.4" [1, 2, 3, 4, 5, 6, 0x102, 0x304] ∧ ∀ a, ¬ V6Text u!"1:2:3:4:5:6:7::" a := by
  have g := C96_grammar exEnv (.inr (by decide))
  refine ⟨(g _ _).1 (by decide +kernel), (g _ _).1 (by decide +kernel), (g _ _).1 (by decide +kernel), fun a h => ?_⟩
  have := (g _ _).2 h
  rw [show (ipv6Parse exEnv u!"1:2:3:4:5:6:7::").res = .error .ipv6Parse by decide +kernel] at this
  cases this

-- and one that is built by hand
example : V6Text u!"1::2" [1, 0, 0, 0, 0, 0, 0, 2] :=
  .compressed (l := u!"1") (r := u!"2") (.inr (.one (.hex _ 1 (by decide) (by decide) (by decide))))
    (.inr (.one (.hex _ 2 (by decide) (by decide) (by decide)))) (by decide) (by decide)

example : (hostParse exEnv u!"[1::2]" true).res = .ok (.ipv6 [1, 0, 0, 0, 0, 0, 0, 2]) :=
  (C96_host exEnv (.inr (by decide)) _ _ _).2 ⟨u!"1::2", rfl,
    .compressed (l := u!"1") (r := u!"2") (.inr (.one (.hex _ 1 (by decide) (by decide) (by decide))))
      (.inr (.one (.hex _ 2 (by decide) (by decide) (by decide)))) (by decide) (by decide)⟩

example : Spec.ipv6Parse u!"1::2" = some [1, 0, 0, 0, 0, 0, 0, 2] := by
  refine (C96_standard _ _ ?_).2 ⟨(C96_grammar exEnv (.inr (by decide)) _ _).1 (by decide +kernel), ?_, ?_⟩
  · rintro ⟨ps, h1, h2, h3⟩
    have := congrArg List.length h3
    match ps, h1 with
    | [a, b, c, d, e, f, g], _ => simp at this; have ha := (h2 a (by simp)).1; omega
  · rintro ⟨t, h⟩; cases h
  · rintro ⟨x, y, h, -⟩
    have : (46 : Nat) ∈ u!"1::2" := by rw [h]; simp
    revert this; decide

end Urlstd.Props
