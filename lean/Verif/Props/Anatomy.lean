/-
Property C81: where the parts of a URL with an authority are found, and what becomes of each.
-/
import Verif.Lemmas.Anatomy
import Verif.Props.AnyBase

namespace Urlstd.Props

open Spec (IsStr SchemeText TabOrNewline C0OrSpace Parts AuthorityEnd)

/-- C81. Every text behind the slashes can be taken apart, and in one way only. -/
theorem C81_parts (special : Bool) (r : Str) (hr : special = true → ∀ c, r.head? = some c → c ≠ c!"/" ∧ c ≠ c!"\\") :
    ∃ p : Parts, p.OK special ∧ p.text = r ∧ ∀ p' : Parts, p'.OK special → p'.text = r → p' = p := by
  obtain ⟨h1, h2⟩ := anatomy_spec hr
  refine ⟨anatomy special r, h2, h1, ?_⟩
  rintro p' h3 rfl
  exact (anatomy_text h3).symm

/-- the text of the parts does not begin with a slash that would be skipped -/
theorem parts_head {p : Parts} (ok : p.OK true) {c : Nat} (hc : p.text.head? = some c) : isSlash c = false := by
  have hne : ∀ c, ¬ AuthorityEnd true c → isSlash c = false := by
    intro c hc
    rw [← authorityEnd_iff] at hc
    unfold isAuthorityEnd at hc
    unfold isSlash
    simp only [Bool.true_and, Bool.or_eq_true, beq_iff_eq, not_or] at hc
    simp [hc]
  obtain ⟨ui, h, port, path, q, f⟩ := p
  rw [Parts.text_eq] at hc
  obtain ⟨o1, o2, -, -, -, -, -, o8⟩ := ok
  dsimp only at o1 o2 o8 hc
  cases ui with
  | some x =>
    cases x with
    | nil => cases hc; rfl
    | cons y ys =>
      obtain rfl : y = c := by simpa using hc
      exact hne _ (o1 _ rfl y (.head _))
  | none =>
    cases h with
    | cons y ys =>
      obtain rfl : y = c := by simpa using hc
      exact hne _ (o2 y (.head _)).1
    | nil =>
      cases port with
      | some x => cases hc; rfl
      | none =>
        rw [o8 rfl rfl rfl rfl] at hc
        rcases tailStr_head q f c hc with rfl | rfl <;> rfl

/-- C81. The URL of "scheme://" and such parts: the username and the password are percent-encoded, the host is what the host
parser says, the port is a number, the dot segments of the path are followed, query and fragment are percent-encoded. The text is
refused if, and as, host or port are. With a special scheme there may be further slashes in front. No base has an influence. -/
theorem C81_absolute (env : Env) (sc sl : Str) (p : Parts) (hsc : SchemeText sc) (hnf : Spec.toLower sc ≠ u!"file")
    (ok : p.OK (Spec.isSpecial (Spec.toLower sc)))
    (hsl : if Spec.isSpecial (Spec.toLower sc) then ∀ c ∈ sl, c = c!"/" ∨ c = c!"\\" else sl = [])
    (hstr : IsStr p.text) (htab : ∀ c ∈ p.text, ¬ TabOrNewline c) (hlast : ∀ c, p.text.getLast? = some c → ¬ C0OrSpace c) :
    (parseUrl env (sc ++ u!"://" ++ sl ++ p.text)).res = p.url env (Spec.toLower sc) ∧
      ∀ b, (parseUrl env (sc ++ u!"://" ++ sl ++ p.text) (.record b)).res = p.url env (Spec.toLower sc) := by
  have main : (parseUrl env (sc ++ u!"://" ++ sl ++ p.text)).res = p.url env (Spec.toLower sc) := by
    rw [parseUrl_none]
    have e0 : sc ++ u!"://" ++ sl ++ p.text = sc ++ 58 :: ([47, 47] ++ (sl ++ p.text)) := by simp
    have hslash : ∀ c ∈ sl, isSlash c = true := by
      intro c hc
      split at hsl
      · rcases hsl c hc with rfl | rfl <;> rfl
      · rw [hsl] at hc; cases hc
    have hprep : prepEnd ([47, 47] ++ (sl ++ p.text)) = 47 :: 47 :: (sl ++ p.text) := by
      rw [prepEnd_append (by decide), prepEnd_append, prepEnd_id]
      · rfl
      · intro c hc
        have := htab c hc
        rw [← isTabNewline_iff] at this
        simpa using this
      · intro c hc
        have := hlast c hc
        rw [← isC0OrSpace_iff] at this
        simpa using this
      · intro c hc
        have := hslash c hc
        unfold isSlash at this
        simp only [Bool.or_eq_true, decide_eq_true_eq] at this
        rcases this with rfl | rfl <;> rfl
    rw [e0, parse_scheme hsc, hprep]
    dsimp only
    rw [if_neg hnf]
    have hspe : ({ scheme := Spec.toLower sc } : Rec).isSpecial = Spec.isSpecial (Spec.toLower sc) := (isSpecial_eq _).symm
    rw [hspe]
    cases hsp : Spec.isSpecial (Spec.toLower sc) with
    | true =>
      rw [if_pos rfl, if_neg (by simp)]
      show Fin.toExcept (eval env .utf8 none none .specialAuthoritySlashes (47 :: 47 :: (sl ++ p.text)) { scheme := Spec.toLower sc }) = _
      rw [authoritySlashes_ignore, eval_step _ _ _ _ (by decide)]
      show Fin.toExcept (eval env .utf8 none none .authority (([47, 47] ++ (sl ++ p.text)).dropWhile isSlash) { scheme := Spec.toLower sc }) = _
      rw [hsp] at ok
      rw [dropWhile_append_of (by decide), dropWhile_append hslash fun c hc => parts_head ok hc]
      exact eval_authority_parts (by rw [hsp]; exact ok) hstr
    | false =>
      rw [hsp] at hsl
      rw [if_neg (by simp), if_pos (show (47 :: 47 :: (sl ++ p.text)).head? = some 47 from rfl)]
      have hsl : sl = [] := by simpa using hsl
      subst hsl
      show Fin.toExcept (eval env .utf8 none none .pathOrAuthority (47 :: p.text) { scheme := Spec.toLower sc }) = _
      rw [eval_step _ _ _ _ (by decide)]
      exact eval_authority_parts ok hstr
  refine ⟨main, fun b => ?_⟩
  rw [← main, List.append_assoc, C76_slashes_ignore_base env sc (sl ++ p.text) hsc b]

-- everything at once; the bracketed colons belong to the host
example : (parseUrl exEnv (u!"HTTP" ++ u!"://" ++ u!"\\/" ++ u!"u@:p:q@[1::]:081/a/./b/%2e./c d?x y?#z#")).res = .ok
    { scheme := u!"http", username := u!"u%40", password := u!"p%3Aq", host := some (.ipv6 [1, 0, 0, 0, 0, 0, 0, 0]), port := some 81,
      path := .list [u!"a", u!"c%20d"], query := some u!"x%20y?", fragment := some u!"z#" } := by
  obtain ⟨p, ok, ht, -⟩ := C81_parts true u!"u@:p:q@[1::]:081/a/./b/%2e./c d?x y?#z#" (by decide)
  have hp : p = ⟨some u!"u@:p:q", u!"[1::]", some u!"081", u!"/a/./b/%2e./c d", some u!"x y?", some u!"z#"⟩ := by
    rw [← anatomy_text ok, ht]
    decide +kernel
  have := (C81_absolute exEnv u!"HTTP" u!"\\/" p ⟨c!"H", u!"TTP", rfl, by decide, by decide⟩ (by decide) ok (by decide)
    (by rw [ht]; decide) (by rw [ht]; decide) (by rw [ht]; decide)).1
  rw [ht] at this
  rw [this, hp]
  decide +kernel

/-- C81 for any input of this form: its parts exist and say what the result is. -/
theorem C81_any (env : Env) (sc r : Str) (hsc : SchemeText sc) (hnf : Spec.toLower sc ≠ u!"file")
    (hstr : IsStr r) (htab : ∀ c ∈ r, ¬ TabOrNewline c) (hlast : ∀ c, r.getLast? = some c → ¬ C0OrSpace c) :
    ∃ p : Parts, p.OK (Spec.isSpecial (Spec.toLower sc)) ∧
      p.text = (if Spec.isSpecial (Spec.toLower sc) then r.dropWhile (fun c => c = c!"/" ∨ c = c!"\\") else r) ∧
      (parseUrl env (sc ++ u!"://" ++ r)).res = p.url env (Spec.toLower sc) := by
  cases hsp : Spec.isSpecial (Spec.toLower sc) with
  | false =>
    obtain ⟨p, ok, ht, -⟩ := C81_parts false r (by simp)
    refine ⟨p, ok, by simpa using ht, ?_⟩
    subst ht
    have := (C81_absolute env sc [] p hsc hnf (by rw [hsp]; exact ok) (by rw [hsp]; simp) hstr htab hlast).1
    rwa [List.append_nil] at this
  | true =>
    let q : Nat → Bool := fun c => c = 47 ∨ c = 92
    have hcat : r.takeWhile q ++ r.dropWhile q = r := List.takeWhile_append_dropWhile
    obtain ⟨p, ok, ht, -⟩ := C81_parts true (r.dropWhile q) (by
      intro _ c hc
      have := List.head?_dropWhile_not q r
      rw [hc] at this
      have : ¬ (c = 47 ∨ c = 92) := by simpa [q] using this
      exact not_or.1 this)
    refine ⟨p, ok, ht.trans (if_pos rfl).symm, ?_⟩
    have hsub : ∀ c ∈ p.text, c ∈ r := fun c hc => (List.dropWhile_sublist _).subset (ht ▸ hc)
    have := (C81_absolute env sc (r.takeWhile q) p hsc hnf (by rw [hsp]; exact ok) (by
      rw [hsp, if_pos rfl]
      intro c hc
      have := tailParts_text.mem_takeWhile_true hc
      simpa [q] using this) (fun c hc => hstr c (hsub c hc)) (fun c hc => htab c (hsub c hc)) (by
      intro c hc
      refine hlast c ?_
      rw [← hcat, ← ht, List.getLast?_append, hc]
      rfl)).1
    rwa [List.append_assoc (sc ++ u!"://"), ht, hcat] at this

example : ∃ p : Parts, p.OK true ∧ p.text = u!"h?q" ∧ (parseUrl exEnv (u!"ws" ++ u!"://" ++ u!"/h?q")).res = p.url exEnv u!"ws" :=
  C81_any exEnv u!"ws" u!"/h?q" ⟨c!"w", u!"s", rfl, by decide, by decide⟩ (by decide) (by decide) (by decide) (by decide)

end Urlstd.Props
