/-
A port with more digits than CPython converts.
-/
import Verif.Lemmas.RoundTrip2

namespace Urlstd

theorem parse_long_port (env : Env) (h : 0 < env.maxStrDigits) :
    (basicParse env (u!"foo://h:" ++ List.replicate (env.maxStrDigits + 1) c!"1")).toExcept =
      .error .valueError := by
  have hm : ∀ c ∈ List.replicate (env.maxStrDigits + 1) 49, c = 49 := fun c hc => (List.mem_replicate.1 hc).2
  have hne : List.replicate (env.maxStrDigits + 1) 49 ≠ [] := by simp
  have hpy : pyInt env 10 (List.replicate (env.maxStrDigits + 1) 49) = none :=
    pyInt_long env (digits_numeral (fun c hc => by rw [hm c hc]; rfl)) (by simp) (by simp; omega)
  generalize List.replicate (env.maxStrDigits + 1) 49 = d at *
  have hprep : prepared (u!"foo://h:" ++ d) none = u!"foo" ++ 58 :: (u!"//h:" ++ d) := by
    refine prepared_id ?_ (by simp) ?_
    · intro c hc
      rcases List.mem_append.1 hc with hc | hc
      · exact (by decide : ∀ c ∈ u!"foo://h:", 32 ≤ c) c hc
      · have := hm c hc; omega
    · intro hl
      rw [List.getLast?_append] at hl
      cases hd : d.getLast? with
      | none => rw [List.getLast?_eq_none_iff] at hd; exact hne hd
      | some c =>
        rw [hd] at hl
        simp at hl
        subst hl
        have := hm _ (List.mem_of_getLast? hd)
        omega
  rw [basicParse_toExcept, hprep, eval_step _ _ _ _ (by decide)]
  show Fin.toExcept ((sScheme none none (u!"foo" ++ 58 :: (u!"//h:" ++ d)) {}).andThen env .utf8 none none) = _
  unfold sScheme
  rw [takeScheme_text ⟨102, u!"oo", rfl, by decide, by decide⟩]
  show Fin.toExcept (eval env .utf8 none none .pathOrAuthority (u!"/h:" ++ d) { scheme := u!"foo" }) = _
  rw [eval_step _ _ _ _ (by decide)]
  show Fin.toExcept (eval env .utf8 none none .authority (u!"h:" ++ d) { scheme := u!"foo" }) = _
  rw [eval_step _ _ _ _ (by decide)]
  show Fin.toExcept ((sAuthority (u!"h:" ++ d) { scheme := u!"foo" }).andThen env .utf8 none none) = _
  have hd64 : 64 ∉ d := fun hc => by have := hm _ hc; omega
  have hauth : sAuthority (u!"h:" ++ d) { scheme := u!"foo" } = .to .host (u!"h:" ++ d) { scheme := u!"foo" } := by
    unfold sAuthority
    dsimp only
    rw [splitAtLast_none.2]
    intro hc
    have := (List.takeWhile_sublist _).subset hc
    rcases List.mem_append.1 this with hc | hc
    · simp at hc
    · exact hd64 hc
  rw [hauth]
  show Fin.toExcept (eval env .utf8 none none .host (u!"h:" ++ d) { scheme := u!"foo" }) = _
  rw [eval_step _ _ _ _ (by decide)]
  show Fin.toExcept (eval env .utf8 none none .port d { scheme := u!"foo", host := some (.str u!"h") }) = _
  rw [eval_step _ _ _ _ (by decide)]
  show Fin.toExcept ((sPort env none d { scheme := u!"foo", host := some (.str u!"h") }).andThen env .utf8 none none) = _
  unfold sPort
  have hdig : ∀ c ∈ d, isDigit c = true := fun c hc => by rw [hm c hc]; rfl
  have h1 := takeWhile_append (b := []) hdig (by simp)
  have h2 := dropWhile_append (b := []) hdig (by simp)
  rw [List.append_nil] at h1 h2
  rw [h1, h2]
  unfold sPortGo sPortEnd
  dsimp only
  rw [if_neg (by simpa using hne), hpy]
  rfl

end Urlstd
