/-
Property C84: the descriptions of validation errors show the text and point at the fault.
-/
import Verif.Lemmas.Notes2
import Verif.Props.Machine

namespace Urlstd.Props

open Spec (Points)

/-- C84. There is one description for each error that is recorded, in the same order. -/
theorem C84_same_errors (env : Env) (s : Str) (base : Option Rec) (e : Encoding) (url0 : Option Rec) (ov : Option PState) :
    (parseNotes env s base e url0 ov).map Note.ev = (basicParse env s base e url0 ov).log :=
  notes_log env s base e url0 ov

example : (basicParse exEnv u!"http:\\u@a/%zz").log =
    [.ev .invalidURLUnit, .ev .invalidCredentials, .ev .specialSchemeMissingFollowingSolidus, .ev .specialSchemeMissingFollowingSolidus] := by
  rw [← C84_same_errors exEnv u!"http:\\u@a/%zz" none .utf8 none none]
  decide

/-- C84. A position that is shown is that of the fault, in the text that is shown beside it; the text is the input without the
controls and spaces around it and without tabs and newlines. -/
theorem C84_points (env : Env) (s : Str) (base : Option Rec) (e : Encoding) (k : VErr) (part : Option Str) (t : Str) (p : Nat)
    (h : .at k part t p ∈ parseNotes env s base e) : t = Spec.dropTabs (Spec.stripC0 s) ∧ Points t p part k := by
  obtain ⟨j, h1, -⟩ := notes_fine env s base e none none (by intro o h; cases h)
  obtain ⟨h2, -, -, h3⟩ := h1 _ _ _ _ h
  exact ⟨by rw [h2, prepared_std], by rw [h2]; exact h3⟩

-- the backslash behind ":", the "@" and the percent sign
example : parseNotes exEnv u!" http:\\u@a/%zz" = [
    .at .invalidURLUnit (some u!"%zz") u!"http:\\u@a/%zz" 10,
    .at .invalidCredentials none u!"http:\\u@a/%zz" 7,
    .at .specialSchemeMissingFollowingSolidus (some u!"\\") u!"http:\\u@a/%zz" 5,
    .at .specialSchemeMissingFollowingSolidus (some u!"\\u") u!"http:\\u@a/%zz" 5,
    .plain .invalidURLUnit u!" http:\\u@a/%zz"] := by decide

example : Points u!"http:\\u@a/%zz" 10 (some u!"%zz") .invalidURLUnit :=
  (C84_points exEnv u!" http:\\u@a/%zz" none .utf8 _ _ _ _ (by decide)).2

-- a drive letter against a file URL
example : parseNotes exEnv u!"C|/x" (some { scheme := u!"file", host := some (.str []), path := .list [u!"a"] }) = [
    .at .invalidURLUnit (some u!"|") u!"C|/x" 1,
    .at .fileInvalidWindowsDriveLetter (some u!"C|") u!"C|/x" 0] := by decide

/-- C84 for the setters: the text is the value without tabs and newlines. The two states that are excluded are no state override
of any setter. -/
theorem C84_points_setter (env : Env) (s : Str) (base : Option Rec) (e : Encoding) (u : Rec) (ov : PState)
    (h1 : ov ≠ .specialRelativeOrAuthority) (h2 : ov ≠ .specialAuthoritySlashes) (k : VErr) (part : Option Str) (t : Str) (p : Nat)
    (h : .at k part t p ∈ parseNotes env s base e (some u) (some ov)) : t = Spec.dropTabs s ∧ Points t p part k := by
  obtain ⟨j, h3, -⟩ := notes_fine env s base e (some u) (some ov) (by rintro o ho (h | h) <;> cases ho <;> contradiction)
  obtain ⟨h4, -, -, h5⟩ := h3 _ _ _ _ h
  refine ⟨?_, by rw [h4]; exact h5⟩
  rw [h4, dropTabs_eq]
  rfl

example : parseNotes exEnv u!"a\nb^" none .utf8 (some exRecord) (some .query) = [
    .at .invalidURLUnit (some u!"^") u!"ab^" 2, .plain .invalidURLUnit u!"a\nb^"] := by decide

/-- C84. Descriptions come in the order of the text (the newest is the first of the list). -/
theorem C84_order (env : Env) (s : Str) (base : Option Rec) (e : Encoding) (url0 : Option Rec) (ov : Option PState)
    (hov : ov ≠ some .specialRelativeOrAuthority ∧ ov ≠ some .specialAuthoritySlashes) :
    ((parseNotes env s base e url0 ov).filterMap fun n => match n with | .at _ _ _ p => some p | _ => none).Pairwise (· ≥ ·) := by
  obtain ⟨j, -, h⟩ := notes_fine env s base e url0 ov (by rintro o rfl (h | h) <;> subst h <;> simp at hov)
  exact h

example : (parseNotes exEnv u!"http:\\u@a/%zz").filterMap (fun n => match n with | .at _ _ _ p => some p | _ => none) = [10, 7, 5, 5] := by
  decide

/-- C84. The other descriptions show the input as it was given, without the controls and spaces around it, or also without tabs and
newlines; or they belong to the host parser. -/
theorem C84_text (env : Env) (s : Str) (base : Option Rec) (e : Encoding) (k : VErr) (t : Str)
    (h : .plain k t ∈ parseNotes env s base e) : t = s ∨ t = Spec.stripC0 s ∨ t = Spec.dropTabs (Spec.stripC0 s) := by
  rcases notes_shown env s base e none none h with h | h | ⟨-, h⟩
  · exact .inr (.inr (by rw [h, prepared_std]))
  · exact .inl h
  · exact .inr (.inl (by rw [h, stripC0_eq]))

example : parseNotes exEnv u!"http://a:b" = [.plain .portInvalid u!"http://a:b"] := by decide

end Urlstd.Props
