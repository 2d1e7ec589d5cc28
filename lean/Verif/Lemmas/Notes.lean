/-
Helper lemmas for C84: the descriptions belong to the errors that the parser records, and point at them.
-/
import Verif.Notes
import Verif.Spec.Notes
import Verif.Lemmas.Reports1
import Verif.Lemmas.Suffix

namespace Urlstd

/-! ### the descriptions are those of the recorded errors -/

theorem unitNote_log (s : Str) (i c : Nat) (cs : Str) : (unitNote s i c cs).map Note.ev = unitLog c cs := by
  unfold unitNote unitLog
  split
  · rfl
  · split <;> rfl

theorem map_host_ev (l : Log) : (l.map Note.host).map Note.ev = l := by
  rw [List.map_map]
  conv_rhs => rw [← List.map_id l]
  rfl

theorem authorityNotes_log (s : Str) (sp : Bool) : ∀ (r : Str) (i : Nat) (b : Str) (a p : Bool) (url : Rec) (log : Log),
    (authorityLoop sp r i b a p url log).log = (authorityNotes s sp r i b.isEmpty a).map Note.ev ++ log
  | [], i, b, a, p, url, log => by
    unfold authorityLoop authorityNotes authorityEnd
    split <;> simp [Out.fail, Out.to, Note.ev]
  | c :: cs, i, b, a, p, url, log => by
    unfold authorityLoop authorityNotes authorityEnd
    split
    · rw [authorityNotes_log s sp cs]
      simp [Note.ev]
    · split
      · split <;> simp [Out.fail, Out.to, Note.ev]
      · rw [authorityNotes_log s sp cs]
        have : (b ++ [c]).isEmpty = false := by cases b <;> rfl
        rw [this]

theorem fileNotes_log (s : Str) (i : Nat) (base : Option Rec) (url : Rec) :
    (parseFile s i base url).log = (fileNotes s i base).map Note.ev := by
  unfold fileNotes parseFile baseIsFile
  dsimp only
  cases h : s.drop i with
  | nil =>
    cases base with
    | none => rfl
    | some b =>
      dsimp only
      split <;> rfl
  | cons c cs =>
    dsimp only
    split
    · rfl
    · split
      · rfl
      · cases base with
        | none => simp [Out.to]
        | some b =>
          dsimp only
          by_cases hf : b.scheme = u!"file"
          · rw [if_pos hf]
            by_cases hq : c = c!"?"
            · simp [hq, Out.to]
            by_cases hh : c = c!"#"
            · simp [hh, Out.to]
            rw [if_neg hq, if_neg hh]
            by_cases hd : startsWithWindowsDriveLetter (c :: cs) = true
            · simp [hd, hf, hq, hh, Out.to, Note.ev]
            · simp only [hd, Bool.not_false, Bool.and_false, Bool.false_eq_true, if_false, List.map_nil, if_true]
              split <;> rfl
          · rw [if_neg hf]
            simp [hf, Out.to]

theorem fileSlash_log (s : Str) (i : Nat) (base : Option Rec) (url : Rec) :
    (parseFileSlash s i base url).log = (backslashNote s i).map Note.ev := by
  unfold parseFileSlash backslashNote
  dsimp only
  have h0 : ∀ rest : Str, (match base with
      | none => (.to .path i url : Out)
      | some b =>
        if b.scheme = u!"file" then
          match b.path with
          | .list (p0 :: _) =>
            if (!startsWithWindowsDriveLetter rest && isNormalizedWindowsDriveLetter p0) = true then
              match url.path with
              | .list p => .to .path i { url with host := b.host, path := .list (p ++ [p0]) }
              | .opaque _ => .fail .assertionError { url with host := b.host }
            else .to .path i { url with host := b.host }
          | _ => .to .path i { url with host := b.host }
        else .to .path i url).log = [] := by
    intro rest
    repeat' split
    all_goals rfl
  cases h : s.drop i with
  | nil => exact h0 []
  | cons c cs =>
    dsimp only
    by_cases h1 : c = c!"/"
    · rw [if_pos h1, if_neg (by simp [h1])]
      rfl
    · rw [if_neg h1]
      by_cases h2 : c = c!"\\"
      · rw [if_pos h2, if_pos (by simp [h2])]
        rfl
      · rw [if_neg h2, if_neg (by simpa using h2)]
        exact h0 (c :: cs)

theorem fileHostNotes_log (env : Env) (s : Str) (ov : Bool) (url : Rec) : ∀ (r : Str) (i : Nat) (b : Str),
    (fileHostLoop env ov r i b url).log = (fileHostNotes env s ov url.isSpecial r i b).map Note.ev
  | [], i, b => fin i b
  | c :: cs, i, b => by
    unfold fileHostLoop fileHostNotes
    split
    · exact fin i b
    · exact fileHostNotes_log env s ov url cs (i + 1) (b ++ [c])
where
  fin (i : Nat) (b : Str) : (fileHostEnd env ov i b url).log = (fileHostNotes.finish env s ov url.isSpecial i b).map Note.ev := by
    unfold fileHostEnd fileHostNotes.finish
    split
    · rfl
    · split
      · rfl
      · rw [map_host_ev]
        split <;> rename_i h <;> rw [h] <;> rfl

theorem fragmentNotes_log (s : Str) : ∀ (r : Str) (i : Nat), unitsLog r = (fragmentNotes s r i).map Note.ev
  | [], _ => rfl
  | c :: cs, i => by
    rw [fragmentNotes, unitsLog, List.map_append, unitNote_log, fragmentNotes_log s cs (i + 1)]

theorem fragment_log (s : Str) (i : Nat) (url : Rec) : (parseFragment s i url).log = (fragmentNotes s (s.drop i) i).map Note.ev := by
  rw [← fragmentNotes_log]
  unfold parseFragment
  dsimp only
  split
  · rename_i h
    rw [List.isEmpty_iff.1 h]
    rfl
  · split <;> rfl

theorem hostNotes_log (env : Env) (s : Str) (ov : Option PState) (url : Rec) : ∀ (r : Str) (i : Nat) (b : Str) (ins : Bool),
    (hostLoop env ov r i b ins url).log = (hostNotes env s ov url r b ins).map Note.ev
  | [], i, b, _ => fin i b
  | c :: cs, i, b, ins => by
    unfold hostLoop hostNotes
    split
    · split
      · rfl
      · split
        · rfl
        · rw [map_host_ev]
          split <;> rename_i h <;> rw [h] <;> rfl
    · split
      · exact fin i b
      · exact hostNotes_log env s ov url cs (i + 1) _ _
where
  fin (i : Nat) (b : Str) : (hostEnd env ov.isSome i b url).log = (hostNotes.finish env s ov url b).map Note.ev := by
    unfold hostEnd hostNotes.finish
    split
    · rfl
    · split
      · rfl
      · rw [map_host_ev]
        split <;> rename_i h <;> rw [h] <;> rfl

theorem noScheme_log (s : Str) (i : Nat) (base : Option Rec) (url : Rec) :
    (parseNoScheme s i base url).log = (noSchemeNotes s i base).map Note.ev := by
  unfold parseNoScheme noSchemeNotes
  cases base with
  | none => rfl
  | some b =>
    dsimp only
    have e : (!((s.drop i).head? == some c!"#")) = ((s.drop i).head? != some c!"#") := rfl
    rw [e]
    split
    · rfl
    · repeat' split
      all_goals rfl

theorem opaqueNotes_log (s : Str) : ∀ (r : Str) (i : Nat) (url : Rec) (log : Log),
    (opaqueLoop r i url log).log = (opaqueNotes s r i).map Note.ev ++ log
  | [], _, _, _ => rfl
  | c :: cs, i, url, log => by
    unfold opaqueLoop opaqueNotes
    split
    · rfl
    · split
      · rfl
      · rw [opaqueNotes_log s cs, List.map_append, unitNote_log, List.append_assoc]

theorem pathNotes_log (s sch : Str) (ov : Bool) : ∀ (r : Str) (i : Nat) (b : Str) (p : List Str) (log : Log),
    (pathLoop sch ov r i b p log).2.2.2 = (pathNotes s (isSpecialScheme sch) ov r i).map Note.ev ++ log
  | [], _, _, _, _ => rfl
  | c :: cs, i, b, p, log => by
    unfold pathLoop pathNotes
    split
    · exact pathNotes_log s sch ov cs _ _ _ _
    · split
      · rw [pathNotes_log s sch ov cs, List.map_append, List.append_assoc]
        rfl
      · split
        · rfl
        · split
          · rfl
          · rw [pathNotes_log s sch ov cs, List.map_append, List.append_assoc, unitNote_log]

theorem path_log (s : Str) (i : Nat) (url : Rec) (ov : Option PState) :
    (parsePath s i url ov).log = (if url.hasOpaquePath then [] else pathNotes s url.isSpecial ov.isSome (s.drop i) i).map Note.ev := by
  unfold parsePath Rec.hasOpaquePath
  cases h : url.path with
  | «opaque» t => rfl
  | list p =>
    dsimp only
    have := pathNotes_log s url.scheme ov.isSome (s.drop i) i [] p []
    rw [List.append_nil] at this
    exact this

theorem portNotes_log (env : Env) (s : Str) (ov : Bool) (url : Rec) : ∀ (r : Str) (i : Nat) (b : Str),
    (portLoop env ov r i b url).log = (portNotes env s ov url.isSpecial r b).map Note.ev
  | [], i, b => fin i b
  | c :: cs, i, b => by
    unfold portLoop portNotes
    split
    · exact portNotes_log env s ov url cs (i + 1) _
    · split
      · exact fin i b
      · rfl
where
  fin (i : Nat) (b : Str) : (portEnd env ov i b url).log = (portNotes.finish env s b).map Note.ev := by
    unfold portEnd portNotes.finish
    dsimp only
    by_cases hb : b.isEmpty = true
    · rw [if_pos hb]
      cases pyInt env 10 b with
      | none => rfl
      | some v =>
        rw [hb]
        rfl
    · rw [if_neg hb]
      cases pyInt env 10 b with
      | none => rfl
      | some v =>
        dsimp only
        by_cases hv : v.toNat > 0xFFFF
        · rw [if_pos hv, if_pos (by simp [hb, hv])]
          rfl
        · have : (!b.isEmpty && decide (v.toNat > 0xFFFF)) = false := by rw [decide_eq_false hv, Bool.and_false]
          rw [if_neg hv, this]
          rfl

theorem queryNotes_log (s : Str) (ov : Bool) : ∀ (r : Str) (i : Nat) (b : Str) (log : Log),
    (queryLoop ov r i b log).2.2.2 = (queryNotes s ov r i).map Note.ev ++ log
  | [], _, _, _ => rfl
  | c :: cs, i, b, log => by
    unfold queryLoop queryNotes
    split
    · rfl
    · rw [queryNotes_log s ov cs, List.map_append, List.append_assoc, unitNote_log]

theorem query_log (e : Encoding) (s : Str) (i : Nat) (url : Rec) (ov : Option PState) :
    (parseQuery e s i url ov).log = (queryNotes s ov.isSome (s.drop i) i).map Note.ev := by
  have := queryNotes_log s ov.isSome (s.drop i) i [] []
  rw [List.append_nil] at this
  rw [← this]
  unfold parseQuery
  dsimp only
  split
  · rfl
  · split <;> rfl

theorem solidus_log (s : Str) (i : Nat) : (solidusNote s i).map Note.ev =
    if (s.drop i).take 2 = u!"//" then [] else [.ev .specialSchemeMissingFollowingSolidus] := by
  unfold solidusNote
  split <;> rfl

theorem scheme_log (s : Str) (i : Nat) (base : Option Rec) (url : Rec) (ov : Option PState) :
    (parseScheme s i base url ov).log = (schemeNotes s i ov).map Note.ev := by
  unfold parseScheme schemeNotes
  have hbad : (if ov.isNone = true then Out.to .noScheme i url else .fail .urlParse url).log = [] := by split <;> rfl
  dsimp only
  cases h : s.drop i with
  | nil => exact hbad
  | cons c cs =>
    dsimp only
    split
    · exact hbad
    · cases hs : schemeScan cs (i + 1) [c] with
      | none => exact hbad
      | some r =>
        obtain ⟨b, j⟩ := r
        dsimp only
        cases ov with
        | some o =>
          have : ((some o : Option PState).isNone && lower b == u!"file") = false := rfl
          rw [if_pos (show (some o : Option PState).isSome = true from rfl), this]
          split <;> rfl
        | none =>
          rw [if_neg (show ¬ (none : Option PState).isSome = true by simp)]
          by_cases hf : lower b = u!"file"
          · have : ((none : Option PState).isNone && lower b == u!"file") = true := by rw [hf]; rfl
            rw [if_pos hf, this, if_pos rfl, solidus_log]
            rfl
          · have : ((none : Option PState).isNone && lower b == u!"file") = false := by
              show (lower b == u!"file") = false
              exact beq_eq_false_iff_ne.2 hf
            rw [if_neg hf, this, if_neg Bool.false_ne_true]
            repeat' split
            all_goals rfl

theorem ignoreNotes_log (s : Str) : ∀ (r : Str) (i : Nat) (log : Log),
    (ignoreSlashes r i log).2 = (ignoreNotes s r i).map Note.ev ++ log
  | [], _, _ => rfl
  | c :: cs, i, log => by
    unfold ignoreSlashes ignoreNotes
    split
    · rw [ignoreNotes_log s cs, List.map_append, List.append_assoc]
      rfl
    · rfl

theorem step_log (env : Env) (e : Encoding) (s : Str) (base : Option Rec) (ov : Option PState) (st : PState) (i : Nat) (url : Rec) :
    (step env e s base ov st i url).log = (stepNotes env s base ov st i url).map Note.ev := by
  cases st with
  | schemeStart => exact scheme_log ..
  | noScheme => exact noScheme_log ..
  | specialRelativeOrAuthority =>
    show (parseSpecialRelativeOrAuthority s i url).log = _
    rw [stepNotes, solidus_log]
    unfold parseSpecialRelativeOrAuthority
    split <;> rfl
  | specialAuthoritySlashes =>
    show (parseSpecialAuthoritySlashes s i url).log = _
    rw [stepNotes, solidus_log]
    unfold parseSpecialAuthoritySlashes
    split <;> rfl
  | pathOrAuthority =>
    show (parsePathOrAuthority s i url).log = _
    unfold parsePathOrAuthority
    split <;> rfl
  | relative =>
    show (parseRelative s i base url).log = _
    unfold parseRelative stepNotes backslashNote
    cases base with
    | none => rfl
    | some b =>
      dsimp only
      by_cases hf : b.scheme = u!"file"
      · simp [hf, Out.fail]
      · rw [if_neg hf]
        cases h : s.drop i with
        | nil => simp [Out.to]
        | cons c cs =>
          dsimp only
          have hsp : Rec.isSpecial { url with scheme := b.scheme } = b.isSpecial := rfl
          rw [hsp]
          by_cases h1 : c = c!"/"
          · simp [h1, Out.to]
          rw [if_neg h1]
          by_cases h2 : b.isSpecial = true ∧ c = c!"\\"
          · simp [h2.1, h2.2, hf, Out.to, Note.ev]
          · rw [if_neg (by simpa using h2)]
            have : (if (b.scheme != u!"file" && b.isSpecial) = true then
                if (c :: cs).head? = some c!"\\" then [Note.at .invalidReverseSolidus none s i] else [] else []) = [] := by
              split
              · rename_i h3
                rw [if_neg]
                intro h4
                exact h2 ⟨by simp at h3; exact h3.2, by simpa using h4⟩
              · rfl
            rw [this]
            repeat' split
            all_goals rfl
  | relativeSlash =>
    show (parseRelativeSlash s i base url).log = _
    unfold parseRelativeSlash stepNotes backslashNote
    dsimp only
    by_cases h1 : url.isSpecial = true
    · by_cases h2 : (s.drop i).head? = some c!"\\"
      · simp [h1, h2, Out.to, Note.ev]
      · rw [if_neg (by rw [decide_eq_false h2, Bool.and_false]; simp), if_pos h1, if_neg h2]
        repeat' split
        all_goals rfl
    · rw [if_neg (by simp [h1]), if_neg h1]
      repeat' split
      all_goals rfl
  | specialAuthorityIgnoreSlashes =>
    show (ignoreSlashes (s.drop i) i []).2 = _
    rw [ignoreNotes_log s, List.append_nil]
    rfl
  | authority =>
    show (authorityLoop url.isSpecial (s.drop i) i [] false false url []).log = _
    rw [authorityNotes_log s, List.append_nil]
    rfl
  | host => exact host ..
  | hostname => exact host ..
  | port => exact portNotes_log ..
  | file => exact fileNotes_log ..
  | fileSlash => exact fileSlash_log ..
  | fileHost => exact fileHostNotes_log ..
  | pathStart =>
    show (parsePathStart s i url ov).log = _
    unfold parsePathStart stepNotes backslashNote
    dsimp only
    by_cases h1 : url.isSpecial = true
    · by_cases h2 : (s.drop i).head? = some c!"\\"
      · simp [h1, h2, Out.to, Note.ev]
      · rw [if_pos h1, if_neg h2, if_pos h1, if_neg h2]
        split <;> rfl
    · rw [if_neg h1, if_neg h1]
      repeat' split
      all_goals rfl
  | path => exact path_log ..
  | opaquePath =>
    show (opaqueLoop (s.drop i) i url []).log = _
    rw [opaqueNotes_log s, List.append_nil]
    rfl
  | query => exact query_log ..
  | fragment => exact fragment_log ..
  | scheme => rfl
  | eof => rfl
where
  host : (parseHost env s i url ov).log =
      (if ov.isSome && url.scheme == u!"file" then [] else hostNotes env s ov url (s.drop i) [] false).map Note.ev := by
    unfold parseHost
    split
    · rfl
    · exact hostNotes_log ..

theorem run_notes_log (env : Env) (e : Encoding) (s : Str) (base : Option Rec) (ov : Option PState) : ∀ (fuel : Nat) (st : PState) (i : Nat)
    (url : Rec) (ns : List Note), (runNotes env e s base ov fuel st i url ns).map Note.ev = (run env e s base ov fuel st i url (ns.map Note.ev)).log := by
  intro fuel
  induction fuel with
  | zero =>
    intro st i url ns
    unfold runNotes run
    split <;> rfl
  | succ n ih =>
    intro st i url ns
    unfold runNotes run
    split
    · rfl
    · dsimp only
      have hl := step_log env e s base ov st i url
      split
      · rename_i h1
        rw [h1] at hl ⊢
        dsimp only at hl ⊢
        rw [hl, List.map_append]
      · rename_i h1
        rw [h1] at hl ⊢
        dsimp only at hl ⊢
        rw [ih, hl, List.map_append]

/-- The descriptions are those of the errors that the parser records. -/
theorem notes_log (env : Env) (s : Str) (base : Option Rec) (e : Encoding) (url0 : Option Rec) (ov : Option PState) :
    (parseNotes env s base e url0 ov).map Note.ev = (basicParse env s base e url0 ov).log := by
  unfold parseNotes basicParse
  dsimp only
  cases url0 with
  | none =>
    dsimp only
    rw [run_notes_log]
    congr 1
    split <;> split <;> rfl
  | some u =>
    dsimp only
    rw [run_notes_log]
    congr 1
    split <;> rfl

end Urlstd
