/-
The one place where the parser leaves the standard's state machine: an empty input, or only "file:", against a "file" base.
-/
import Verif.Lemmas.Machine5
import Verif.Lemmas.Reference

set_option linter.unusedSimpArgs false
set_option linter.unusedVariables false

namespace Urlstd

variable {env : Env} {e : Encoding}

/-- a text that lower-cases to "file:" -/
theorem file_spellings {s : Str} (h : Spec.toLower s = u!"file:") :
    ∃ a b c d, s = [a, b, c, d, 58] ∧ (a = 70 ∨ a = 102) ∧ (b = 73 ∨ b = 105) ∧ (c = 76 ∨ c = 108) ∧ (d = 69 ∨ d = 101) := by
  unfold Spec.toLower at h
  match s, h with
  | [a, b, c, d, x], h =>
    simp only [List.map_cons, List.map_nil, List.cons.injEq, and_true] at h
    obtain ⟨h1, h2, h3, h4, h5⟩ := h
    have hx : x = 58 := by split at h5 <;> omega
    subst hx
    refine ⟨a, b, c, d, rfl, ?_, ?_, ?_, ?_⟩
    · split at h1 <;> omega
    · split at h2 <;> omega
    · split at h3 <;> omega
    · split at h4 <;> omega
  | [], h => simp at h
  | [_], h => simp at h
  | [_, _], h => simp at h
  | [_, _, _], h => simp at h
  | [_, _, _, _], h => simp at h
  | _ :: _ :: _ :: _ :: _ :: _ :: _, h => simp at h

theorem eval_file_nil {b : Rec} {p : List Str} (hp : b.path = .list p) (hf : b.scheme = u!"file")
    (hc : b.username = [] ∧ b.password = [] ∧ b.port = none) (sc : Str) :
    Fin.toExcept (eval env e (some b) none .file [] { scheme := sc }) =
      .ok { b with path := .list (p ++ [[]]), fragment := none } := by
  rw [eval_step _ _ _ _ (by decide)]
  show Fin.toExcept ((sFile (some b) [] { scheme := sc }).andThen env e (some b) none) = _
  unfold sFile sFilePath
  dsimp only
  rw [if_pos hf]
  show Fin.toExcept (eval env e (some b) none .path [] _) = _
  rw [eval_step _ _ _ _ (by decide)]
  show Fin.toExcept ((sPath none [] _).andThen env e (some b) none) = _
  unfold sPath
  dsimp only
  rw [hp]
  dsimp only [pathRest, pathText, Option.isSome]
  rw [if_neg (by simp), if_neg (by simp)]
  simp only [List.takeWhile_nil, List.dropWhile_nil]
  have : ∀ sp, pathPieces sp [] = [[]] := fun _ => rfl
  rw [this]
  show Fin.toExcept (eval env e (some b) none .opaquePath [] _) = _
  rw [eval_opaquePath_nil]
  obtain ⟨h1, h2, h3⟩ := hc
  show Except.ok _ = _
  rw [← hf]
  simp only [addPieces, addSegment_nil]
  rw [h1, h2, h3]

/-- what the code does -/
theorem parse_bareFile {s : Str} {b : Rec} {p : List Str} (hs : BareFile s) (hp : b.path = .list p) (hf : b.scheme = u!"file")
    (hc : b.username = [] ∧ b.password = [] ∧ b.port = none) :
    (basicParse env s (some b) e).toExcept = .ok { b with path := .list (p ++ [[]]), fragment := none } := by
  unfold BareFile at hs
  rw [prepared_std] at hs
  rw [basicParse_toExcept]
  rcases hs with hs | hs
  · have := parse_empty_file (env := env) (e := e) hp hf hc
    rw [basicParse_toExcept, prepared_nil] at this
    rw [hs, this]
  · obtain ⟨a1, a2, a3, a4, h, h1, h2, h3, h4⟩ := file_spellings hs
    have key : sScheme (some b) none (prepared s none) {} = .to .file [] { scheme := u!"file" } := by
      rw [h]
      rcases h1 with rfl | rfl <;> rcases h2 with rfl | rfl <;> rcases h3 with rfl | rfl <;> rcases h4 with rfl | rfl <;> rfl
    rw [eval_step _ _ _ _ (by decide)]
    show Fin.toExcept ((sScheme (some b) none (prepared s none) {}).andThen env e (some b) none) = _
    rw [key]
    exact eval_file_nil hp hf hc _

/-- what the standard's machine does -/
theorem parses_bareFile {s : Str} {b : Rec} {p : List Str} (hs : BareFile s) (hp : b.path = .list p) (hf : b.scheme = u!"file")
    (hc : b.username = [] ∧ b.password = [] ∧ b.port = none) (hostParse : Str → Bool → Option Host) :
    Spec.Parses hostParse s (some b) e (.ok { b with fragment := none }) := by
  obtain ⟨sch, us, pw, ho, po, pa, qu, fr⟩ := b
  obtain ⟨h1, h2, h3⟩ := hc
  dsimp only at h1 h2 h3 hp hf
  subst h1 h2 h3 hp hf
  unfold Spec.Parses
  rcases hs with hs | hs
  · rw [hs]
    exact Spec.exec_halts (n := 5) rfl
  · obtain ⟨a1, a2, a3, a4, h, h1, h2, h3, h4⟩ := file_spellings hs
    rw [h]
    rcases h1 with rfl | rfl <;> rcases h2 with rfl | rfl <;> rcases h3 with rfl | rfl <;> rcases h4 with rfl | rfl <;>
      exact Spec.exec_halts (n := 8) rfl

end Urlstd
