/-
The states of the model do what the forms of `Suffix` say (`step_on`), continued.
-/
import Verif.Lemmas.SuffixEq

set_option linter.unusedSimpArgs false
set_option linter.unusedVariables false

namespace Urlstd

theorem drop_of_take {s : Str} {i : Nat} : s.drop (i + 1) = (s.drop i).tail := by
  rw [← List.drop_drop]; cases s.drop i <;> rfl

/-! ### host -/

theorem hostEnd_on (env : Env) (ov : Bool) (s : Str) (i : Nat) (buffer rest : Str) (url : Rec)
    (h : s.drop i = rest) : (hostEnd env ov i buffer url).on s = sHostEnd env ov buffer rest url := by
  subst h
  unfold hostEnd sHostEnd
  split
  · rfl
  · split
    · rfl
    · rcases hostParse env buffer (!url.isSpecial) with ⟨_ | _, _⟩ <;> rfl

theorem sHostGo_stop {env : Env} {ov : Option PState} {b : Str} {url : Rec} {c : Nat} {cs : Str} (h : c ≠ 58) :
    sHostGo env ov b (c :: cs) url = sHostEnd env ov.isSome b (c :: cs) url := by
  unfold sHostGo; simp only; rw [if_neg h]

/-- a character that ends the host -/
def hostStop (special inside : Bool) (c : Nat) : Bool := (c = 58 && !inside) || isAuthorityEnd special c

/-- inside brackets after `c` -/
def nextInside (inside : Bool) (c : Nat) : Bool := if c = 91 then true else if c = 93 then false else inside

theorem hostSpan_stop {special inside : Bool} {c : Nat} (h : hostStop special inside c = true) (cs : Str) :
    hostSpan special inside (c :: cs) = ([], c :: cs) := by
  unfold hostSpan; exact if_pos h

theorem hostSpan_char {special inside : Bool} {c : Nat} (h : hostStop special inside c = false) (cs : Str) :
    hostSpan special inside (c :: cs) =
      (c :: (hostSpan special (nextInside inside c) cs).1, (hostSpan special (nextInside inside c) cs).2) := by
  conv => lhs; unfold hostSpan
  exact if_neg (by simpa [hostStop] using h)

theorem hostLoop_on (env : Env) (ov : Option PState) (s : Str) (url : Rec) (rest : Str) :
    ∀ (i : Nat) (buffer : Str) (inside : Bool), s.drop i = rest →
    (hostLoop env ov rest i buffer inside url).on s =
      sHostGo env ov (buffer ++ (hostSpan url.isSpecial inside rest).1)
        (hostSpan url.isSpecial inside rest).2 url := by
  induction rest with
  | nil =>
    intro i buffer inside h
    unfold hostLoop hostSpan sHostGo
    rw [hostEnd_on env _ s i buffer [] url h]; simp
  | cons c cs ih =>
    intro i buffer inside h
    unfold hostLoop
    by_cases h1 : (decide (c = 58) && !inside) = true
    · have hc : c = 58 := by simp at h1; exact h1.1
      rw [if_pos h1, hostSpan_stop (by simp [hostStop, h1])]
      subst hc
      unfold sHostGo
      simp only [if_true, List.append_nil]
      split
      · rfl
      · split
        · rw [Out.on_to, h]
        · rcases hostParse env buffer (!url.isSpecial) with ⟨_ | _, _⟩
          · rfl
          · simp only [Out.on_to, drop_eq_cons h]
    · rw [if_neg h1]
      by_cases h2 : isAuthorityEnd url.isSpecial c = true
      · rw [if_pos h2, hostSpan_stop (by simp [hostStop, h2]), hostEnd_on env _ s i buffer (c :: cs) url h]
        have hc : c ≠ 58 := by rintro rfl; revert h2; cases url.isSpecial <;> decide
        simp only [List.append_nil]
        rw [sHostGo_stop hc]
      · have hs : hostStop url.isSpecial inside c = false := by
          simp only [Bool.not_eq_true] at h1 h2
          unfold hostStop
          rw [h1, h2]; rfl
        rw [if_neg h2, hostSpan_char hs, ih _ _ _ (drop_eq_cons h)]
        simp [nextInside]

theorem parseHost_on (env : Env) (s : Str) (i : Nat) (url : Rec) (ov : Option PState) :
    (parseHost env s i url ov).on s = sHost env ov (s.drop i) url := by
  unfold parseHost sHost
  split
  · rfl
  · rw [hostLoop_on env ov s url _ i [] false rfl]; rfl

/-! ### port -/

theorem portEnd_on (env : Env) (ov : Bool) (s : Str) (i : Nat) (buffer rest : Str) (url : Rec)
    (h : s.drop i = rest) : (portEnd env ov i buffer url).on s = sPortEnd env ov buffer rest url := by
  subst h
  unfold portEnd sPortEnd
  dsimp only
  split
  · rfl
  · cases pyInt env 10 buffer with
    | none => rfl
    | some v => simp only [Out.on_ite]; rfl

theorem portLoop_on (env : Env) (ov : Bool) (s : Str) (url : Rec) (rest : Str) :
    ∀ (i : Nat) (buffer : Str), s.drop i = rest →
    (portLoop env ov rest i buffer url).on s =
      sPortGo env ov (buffer ++ rest.takeWhile isDigit) (rest.dropWhile isDigit) url := by
  induction rest with
  | nil =>
    intro i buffer h
    unfold portLoop
    rw [portEnd_on env ov s i buffer [] url h]; simp [sPortGo]
  | cons c cs ih =>
    intro i buffer h
    unfold portLoop
    by_cases h1 : isDigit c = true
    · rw [if_pos h1, List.takeWhile_cons, if_pos h1, List.dropWhile_cons, if_pos h1,
        ih _ _ (drop_eq_cons h)]
      simp
    · rw [if_neg h1, List.takeWhile_cons, if_neg h1, List.dropWhile_cons, if_neg h1, Out.on_ite,
        portEnd_on env ov s i buffer (c :: cs) url h]
      simp [sPortGo]

theorem parsePort_on (env : Env) (s : Str) (i : Nat) (url : Rec) (ov : Option PState) :
    (parsePort env s i url ov).on s = sPort env ov (s.drop i) url := by
  unfold parsePort sPort
  rw [portLoop_on env _ s url _ i [] rfl]; rfl

/-! ### file -/

theorem parseFile_on (s : Str) (i : Nat) (base : Option Rec) (url : Rec) :
    (parseFile s i base url).on s = sFile base (s.drop i) url := by
  have hp : ∀ (url : Rec), Out.on s (match base with
      | none => .to .path i url
      | some b =>
        if b.scheme = u!"file" then
          let url := { url with host := b.host, path := b.path, query := b.query }
          match s.drop i with
          | [] => .to .path i url
          | c :: _ =>
            if c = c!"?" then .to .query (i + 1) { url with query := some [] }
            else if c = c!"#" then .to .fragment (i + 1) { url with fragment := some [] }
            else
              let url := { url with query := none }
              if !startsWithWindowsDriveLetter (s.drop i) then
                match shortenRec url with
                | some url => .to .path i url
                | none => .fail .assertionError url
              else
                .to .path i { url with path := .list [] } [.ev .fileInvalidWindowsDriveLetter]
        else .to .path i url) = sFilePath base (s.drop i) url := by
    intro url
    cases base with
    | none => rfl
    | some b =>
      unfold sFilePath
      simp only [Out.on_ite]
      split
      · cases h : s.drop i with
        | nil => simp [h]
        | cons c cs =>
          simp only [Out.on_ite, Out.on_to, drop_eq_cons h, h]
          split
          · rfl
          · split
            · rfl
            · split
              · cases shortenRec _ <;> simp [h]
              · rfl
      · rfl
  unfold parseFile sFile
  have hp := hp { url with scheme := u!"file", host := some (.str []) }
  dsimp only at hp ⊢
  cases h : s.drop i with
  | nil =>
    rw [h] at hp
    exact hp
  | cons c cs =>
    rw [h] at hp
    simp only [Out.on_ite, Out.on_to, drop_eq_cons h]
    by_cases h1 : c = 47
    · simp [h1]
    · by_cases h2 : c = 92
      · simp [h2]
      · simp only [h1, h2, if_false, decide_false, Bool.or_false, Bool.false_eq_true]
        exact hp

theorem parseFileSlash_on (s : Str) (i : Nat) (base : Option Rec) (url : Rec) :
    (parseFileSlash s i base url).on s = sFileSlash base (s.drop i) url := by
  unfold parseFileSlash sFileSlash
  have hp : ∀ rest, s.drop i = rest → Out.on s (match base with
    | none => .to .path i url
    | some b =>
      if b.scheme = u!"file" then
        let url := { url with host := b.host }
        match b.path with
        | .list (p0 :: _) =>
          if !startsWithWindowsDriveLetter rest && isNormalizedWindowsDriveLetter p0 then
            match url.path with
            | .list p => .to .path i { url with path := .list (p ++ [p0]) }
            | .opaque _ => .fail .assertionError url
          else .to .path i url
        | _ => .to .path i url
      else .to .path i url) = sFileSlashPath base rest url := by
    rintro rest rfl
    cases base with
    | none => rfl
    | some b =>
      unfold sFileSlashPath
      simp only [Out.on_ite]
      split
      · cases b.path with
        | «opaque» t => rfl
        | list l =>
          cases l with
          | nil => rfl
          | cons p0 ps =>
            simp only [Out.on_ite]
            split
            · cases url.path <;> rfl
            · rfl
      · rfl
  dsimp only
  cases h : s.drop i with
  | nil => exact hp [] h
  | cons c cs =>
    have hp := hp _ h
    simp only [Out.on_ite, Out.on_to, drop_eq_cons h]
    by_cases h1 : c = 47
    · simp [h1]
    · by_cases h2 : c = 92
      · simp [h2]
      · simp only [h1, h2, if_false, decide_false, Bool.or_false, Bool.false_eq_true]
        exact hp

theorem fileHostEnd_on (env : Env) (ov : Bool) (s : Str) (i : Nat) (buffer rest : Str) (url : Rec)
    (h : s.drop i = rest) (hb : s.drop (i - buffer.length) = buffer ++ rest) :
    (fileHostEnd env ov i buffer url).on s = sFileHostEnd env ov buffer rest url := by
  subst h
  unfold fileHostEnd sFileHostEnd
  split
  · rw [Out.on_to, hb]
  · split
    · rfl
    · rcases hostParse env buffer (!url.isSpecial) with ⟨_ | _, _⟩ <;> rfl

theorem fileHostLoop_on (env : Env) (ov : Bool) (s : Str) (url : Rec) (rest : Str) :
    ∀ (i : Nat) (buffer : Str), s.drop i = rest → buffer.length ≤ i →
    s.drop (i - buffer.length) = buffer ++ rest →
    (fileHostLoop env ov rest i buffer url).on s =
      sFileHostEnd env ov (buffer ++ rest.takeWhile notFileHostEnd) (rest.dropWhile notFileHostEnd) url := by
  induction rest with
  | nil =>
    intro i buffer h hl hb
    unfold fileHostLoop
    rw [fileHostEnd_on env ov s i buffer [] url h hb]; simp
  | cons c cs ih =>
    intro i buffer h hl hb
    unfold fileHostLoop
    by_cases h1 : (decide (c = 47) || decide (c = 92) || decide (c = 63) || decide (c = 35)) = true
    · have hn : notFileHostEnd c = false := by
        unfold notFileHostEnd; rw [h1]; rfl
      rw [if_pos h1, List.takeWhile_cons, if_neg (by simp [hn]), List.dropWhile_cons, if_neg (by simp [hn]),
        fileHostEnd_on env ov s i buffer (c :: cs) url h hb]
      simp
    · have hn : notFileHostEnd c = true := by
        unfold notFileHostEnd
        simp only [Bool.not_eq_true] at h1
        rw [h1]; rfl
      rw [if_neg h1, List.takeWhile_cons, if_pos hn, List.dropWhile_cons, if_pos hn,
        ih _ _ (drop_eq_cons h)]
      · simp
      · simp; omega
      · simp only [List.length_append, List.length_cons, List.length_nil]
        rw [show i + 1 - (buffer.length + (0 + 1)) = i - buffer.length by omega, hb]; simp

theorem parseFileHost_on (env : Env) (s : Str) (i : Nat) (url : Rec) (ov : Option PState) :
    (parseFileHost env s i url ov).on s = sFileHost env ov (s.drop i) url := by
  unfold parseFileHost sFileHost
  rw [fileHostLoop_on env _ s url _ i [] rfl (by simp) (by simp)]; rfl

/-! ### no scheme, relative -/

theorem parseNoScheme_on (s : Str) (i : Nat) (base : Option Rec) (url : Rec) :
    (parseNoScheme s i base url).on s = sNoScheme base (s.drop i) url := by
  unfold parseNoScheme sNoScheme
  cases base with
  | none => rfl
  | some b => simp only [Out.on_ite, Out.on_to, Out.on_fail, drop_of_take]

theorem parseRelative_on (s : Str) (i : Nat) (base : Option Rec) (url : Rec) :
    (parseRelative s i base url).on s = sRelative base (s.drop i) url := by
  unfold parseRelative sRelative
  cases base with
  | none => rfl
  | some b =>
    simp only [Out.on_ite, Out.on_fail]
    split
    · rfl
    · cases h : s.drop i with
      | nil => simp only [Out.on_to, h]; rfl
      | cons c cs =>
        simp only [Out.on_ite, Out.on_to, drop_eq_cons h]
        by_cases h1 : c = 47
        · simp [h1]
        · simp only [h1, if_false, decide_false, Bool.false_or]
          have : (Rec.isSpecial { url with scheme := b.scheme }) = b.isSpecial := rfl
          rw [this]
          split
          · rfl
          · split
            · rfl
            · split
              · rfl
              · show Out.on s (match shortenRec { copyBase b url with query := none } with | some _ => _ | none => _) = _
                cases shortenRec { copyBase b url with query := none } with
                | none => rfl
                | some u => simp only [Out.on_to, h]

theorem parseRelativeSlash_on (s : Str) (i : Nat) (base : Option Rec) (url : Rec) :
    (parseRelativeSlash s i base url).on s = sRelativeSlash base (s.drop i) url := by
  unfold parseRelativeSlash sRelativeSlash
  simp only [Out.on_ite, Out.on_to, drop_of_take]
  cases url.isSpecial with
  | false =>
    simp only [Bool.false_and, Bool.false_eq_true, if_false]
    split
    · rfl
    · cases base <;> rfl
  | true =>
    simp only [Bool.true_and]
    by_cases h1 : (s.drop i).head? = some 92
    · simp [h1]
    · by_cases h2 : (s.drop i).head? = some 47
      · simp [h2]
      · simp only [h1, h2, decide_false, Bool.false_eq_true, if_false, Bool.or_false]
        cases base <;> rfl

/-! ### opaque path, path -/

theorem addText_nil (p : Path) : p.addText [] = p := by
  cases p <;> simp [Path.addText]

theorem addText_append (p : Path) (a b : Str) : p.addText (a ++ b) = (p.addText a).addText b := by
  cases p <;> simp [Path.addText]

theorem opaqueLoop_on (s : Str) (rest : Str) : ∀ (i : Nat) (url : Rec) (log : Log), s.drop i = rest →
    (opaqueLoop rest i url log).on s = sOpaquePath rest url := by
  induction rest with
  | nil =>
    intro i url log h
    simp [opaqueLoop, sOpaquePath, afterPath, h, addText_nil]
  | cons c cs ih =>
    intro i url log h
    unfold opaqueLoop
    by_cases h1 : c = 63
    · subst h1
      simp [sOpaquePath, afterPath, drop_eq_cons h, addText_nil, notQF, List.dropWhile_cons, List.takeWhile_cons]
    · by_cases h2 : c = 35
      · subst h2
        simp [sOpaquePath, afterPath, drop_eq_cons h, addText_nil, notQF, List.dropWhile_cons, List.takeWhile_cons]
      · rw [if_neg h1, if_neg h2, ih _ _ _ (drop_eq_cons h)]
        have hn : notQF c = true := by simp [notQF, h1, h2]
        unfold sOpaquePath
        rw [List.takeWhile_cons, if_pos hn, List.dropWhile_cons, if_pos hn, List.flatMap_cons]
        simp only [addText_append]

theorem parseOpaquePath_on (s : Str) (i : Nat) (url : Rec) :
    (parseOpaquePath s i url).on s = sOpaquePath (s.drop i) url := opaqueLoop_on s _ i url [] rfl

theorem pathPieces_ne_nil (special : Bool) (t : Str) : pathPieces special t ≠ [] := by
  cases t with
  | nil => simp [pathPieces]
  | cons c cs =>
    unfold pathPieces
    split
    · simp
    · cases pathPieces special cs <;> simp

/-- put text in front of the first piece -/
def consPiece (b : Str) : List Str → List Str
  | [] => [b]
  | p :: ps => (b ++ p) :: ps

theorem addPieces_cons {scheme : Str} {path : List Str} {p : Str} {ps : List Str} (h : ps ≠ []) :
    addPieces scheme path (p :: ps) = addPieces scheme (addSegment scheme path p true) ps := by
  cases ps with
  | nil => exact absurd rfl h
  | cons q qs => rfl

theorem pathPieces_sep {special : Bool} {c : Nat} (h : isPathSep special c = true) (cs : Str) :
    pathPieces special (c :: cs) = [] :: pathPieces special cs := by
  rw [pathPieces, if_pos h]

theorem pathPieces_char {special : Bool} {c : Nat} (h : isPathSep special c = false) (cs : Str) :
    pathPieces special (c :: cs) = consPiece [c] (pathPieces special cs) := by
  rw [pathPieces, if_neg (by simp [h])]
  cases pathPieces special cs <;> rfl

theorem consPiece_consPiece (a b : Str) (ps : List Str) :
    consPiece a (consPiece b ps) = consPiece (a ++ b) ps := by
  cases ps <;> simp [consPiece]

/-- the state, index, path of the path loop -/
def pathOut (scheme : Str) (ov : Bool) (s : Str) (buffer : Str) (path : List Str) (rest : Str) :
    List Str × PState × Str :=
  (addPieces scheme path (consPiece buffer (pathPieces (isSpecialScheme scheme) (pathText ov rest))),
    (match pathRest ov rest with
      | [] => .opaquePath
      | c :: _ => if c = 63 then .query else .fragment),
    (pathRest ov rest).tail)

theorem pathLoop_on (scheme : Str) (ov : Bool) (s : Str) (rest : Str) :
    ∀ (i : Nat) (buffer : Str) (path : List Str) (log : Log), s.drop i = rest →
    let r := pathLoop scheme ov rest i buffer path log
    (r.1, r.2.1, s.drop r.2.2.1) = pathOut scheme ov s buffer path rest := by
  induction rest with
  | nil =>
    intro i buffer path log h
    cases ov <;> simp [pathLoop, pathOut, pathText, pathRest, h, pathPieces, consPiece, addPieces]
  | cons c cs ih =>
    intro i buffer path log h
    unfold pathLoop
    dsimp only
    have hsplit : ∀ (hq : ov = true ∨ notQF c = true),
        pathText ov (c :: cs) = c :: pathText ov cs ∧ pathRest ov (c :: cs) = pathRest ov cs := by
      intro hq
      cases ov with
      | true => exact ⟨rfl, rfl⟩
      | false =>
        have hq : notQF c = true := by simpa using hq
        simp [pathText, pathRest, List.takeWhile_cons, List.dropWhile_cons, hq]
    have sep : ∀ log, isPathSep (isSpecialScheme scheme) c = true →
        (let r := pathLoop scheme ov cs (i + 1) [] (addSegment scheme path buffer true) log
         (r.1, r.2.1, s.drop r.2.2.1)) = pathOut scheme ov s buffer path (c :: cs) := by
      intro log hsep
      have := ih (i + 1) [] (addSegment scheme path buffer true) log (drop_eq_cons h)
      have hq : notQF c = true := by
        simp only [isPathSep, Bool.or_eq_true, decide_eq_true_eq, Bool.and_eq_true] at hsep
        simp only [notQF, Bool.not_eq_true', Bool.or_eq_false_iff, decide_eq_false_iff_not]
        omega
      dsimp only at this ⊢
      rw [this]
      obtain ⟨e1, e2⟩ := hsplit (.inr hq)
      unfold pathOut
      rw [e1, e2, pathPieces_sep hsep]
      have hc : consPiece buffer ([] :: pathPieces (isSpecialScheme scheme) (pathText ov cs)) =
        buffer :: pathPieces (isSpecialScheme scheme) (pathText ov cs) := by simp [consPiece]
      rw [hc, addPieces_cons (pathPieces_ne_nil _ _)]
      have hc2 : consPiece [] (pathPieces (isSpecialScheme scheme) (pathText ov cs)) =
          pathPieces (isSpecialScheme scheme) (pathText ov cs) := by
        cases hp : pathPieces (isSpecialScheme scheme) (pathText ov cs) with
        | nil => exact absurd hp (pathPieces_ne_nil _ _)
        | cons p ps => simp [consPiece]
      rw [hc2]
    by_cases h1 : c = 47
    · rw [if_pos h1]
      exact sep _ (by simp [isPathSep, h1])
    · rw [if_neg h1]
      by_cases h2 : (isSpecialScheme scheme && decide (c = 92)) = true
      · rw [if_pos h2]
        exact sep _ (by simp only [isPathSep, h2]; simp)
      · rw [if_neg h2]
        have hsep : isPathSep (isSpecialScheme scheme) c = false := by
          simp only [isPathSep, h1, decide_false, Bool.false_or]
          simpa using h2
        by_cases h3 : (!ov && decide (c = 63)) = true
        · rw [if_pos h3]
          simp only [Bool.and_eq_true, Bool.not_eq_true', decide_eq_true_eq] at h3
          obtain ⟨rfl, rfl⟩ := h3
          simp [pathOut, pathText, pathRest, drop_eq_cons h, notQF, List.dropWhile_cons, List.takeWhile_cons,
            pathPieces, consPiece, addPieces]
        · rw [if_neg h3]
          by_cases h4 : (!ov && decide (c = 35)) = true
          · rw [if_pos h4]
            simp only [Bool.and_eq_true, Bool.not_eq_true', decide_eq_true_eq] at h4
            obtain ⟨rfl, rfl⟩ := h4
            simp [pathOut, pathText, pathRest, drop_eq_cons h, notQF, List.dropWhile_cons, List.takeWhile_cons,
              pathPieces, consPiece, addPieces]
          · rw [if_neg h4]
            have := ih (i + 1) (buffer ++ [c]) path (unitLog c cs ++ log) (drop_eq_cons h)
            dsimp only at this
            rw [this]
            have hq : ov = true ∨ notQF c = true := by
              cases ov with
              | true => exact .inl rfl
              | false => right; simp at h3 h4; simp [notQF, h3, h4]
            obtain ⟨e1, e2⟩ := hsplit hq
            unfold pathOut
            rw [e1, e2, pathPieces_char hsep, consPiece_consPiece]

theorem pathRest_head {ov : Bool} {rest : Str} {c : Nat} {cs : Str} (h : pathRest ov rest = c :: cs) :
    ov = false ∧ (c = 63 ∨ c = 35) := by
  cases ov with
  | true => simp [pathRest] at h
  | false =>
    refine ⟨rfl, ?_⟩
    simp only [pathRest, Bool.false_eq_true, if_false] at h
    have := List.head?_dropWhile_not notQF rest
    rw [h] at this
    simp only [List.head?_cons] at this
    simp only [notQF, Bool.not_eq_false', Bool.or_eq_true, decide_eq_true_eq] at this
    exact this

theorem parsePath_on (s : Str) (i : Nat) (url : Rec) (ov : Option PState) :
    (parsePath s i url ov).on s = sPath ov (s.drop i) url := by
  unfold parsePath sPath
  cases url.path with
  | «opaque» t => rfl
  | list p =>
    have := pathLoop_on url.scheme ov.isSome s (s.drop i) i [] p [] rfl
    dsimp only at this ⊢
    generalize pathLoop url.scheme ov.isSome (s.drop i) i [] p [] = r at this
    obtain ⟨p', st, ix, lg⟩ := r
    unfold pathOut at this
    simp only [Prod.mk.injEq] at this
    obtain ⟨h1, h2, h3⟩ := this
    have hc2 : consPiece [] (pathPieces (isSpecialScheme url.scheme) (pathText ov.isSome (s.drop i))) =
          pathPieces (isSpecialScheme url.scheme) (pathText ov.isSome (s.drop i)) := by
        cases hp : pathPieces (isSpecialScheme url.scheme) (pathText ov.isSome (s.drop i)) with
        | nil => exact absurd hp (pathPieces_ne_nil _ _)
        | cons p ps => simp [consPiece]
    rw [hc2] at h1
    subst h1
    simp only [Out.on_to, h3]
    cases hr : pathRest ov.isSome (s.drop i) with
    | nil =>
      rw [hr] at h2
      simp only at h2
      subst h2
      simp [afterPath, Rec.isSpecial]
    | cons c cs =>
      rw [hr] at h2
      simp only at h2
      obtain ⟨_, rfl | rfl⟩ := pathRest_head hr
      · simp only [if_true] at h2
        subst h2
        simp [afterPath, Rec.isSpecial]
      · simp at h2
        subst h2
        simp [afterPath, Rec.isSpecial]

theorem parsePathOrAuthority_on (s : Str) (i : Nat) (url : Rec) :
    (parsePathOrAuthority s i url).on s = sPathOrAuthority (s.drop i) url := by
  unfold parsePathOrAuthority sPathOrAuthority
  simp only [Out.on_ite, Out.on_to, drop_of_take]

theorem parsePathStart_on (s : Str) (i : Nat) (url : Rec) (ov : Option PState) :
    (parsePathStart s i url ov).on s = sPathStart ov (s.drop i) url := by
  unfold parsePathStart sPathStart
  dsimp only
  simp only [Out.on_ite, Out.on_to, drop_of_take]
  cases h : s.drop i with
  | nil =>
    simp only [List.head?_nil, reduceCtorEq, if_false, decide_false, Bool.and_false, Bool.false_eq_true,
      Out.on_ite, Out.on_to, h]
    split
    · rfl
    · split
      · cases url.path <;> simp [h]
      · rfl
  | cons c cs =>
    simp only [List.head?_cons, Option.some.injEq, List.tail_cons, Out.on_to]
    cases url.isSpecial with
    | true =>
      simp only [if_true, isPathSep, Bool.true_and]
      by_cases h1 : c = 92
      · simp [h1]
      · by_cases h2 : c = 47
        · simp [h2]
        · simp [h1, h2]
    | false =>
      simp only [Bool.false_eq_true, if_false, isPathSep, Bool.false_and, Bool.or_false, decide_eq_true_eq]
      by_cases h2 : c = 47
      · subst h2; simp [drop_eq_cons h]
      · simp only [h2, if_false, h]

/-! ### query, fragment -/

theorem queryLoop_on (ov : Bool) (s : Str) (rest : Str) : ∀ (i : Nat) (buffer : Str) (log : Log), s.drop i = rest →
    let r := queryLoop ov rest i buffer log
    (r.1, r.2.1, s.drop r.2.2.1) =
      (buffer ++ queryText ov rest, !(queryRest ov rest).isEmpty, (queryRest ov rest).tail) := by
  induction rest with
  | nil => intro i buffer log h; cases ov <;> simp [queryLoop, queryText, queryRest, h]
  | cons c cs ih =>
    intro i buffer log h
    unfold queryLoop
    dsimp only
    by_cases h1 : (!ov && decide (c = 35)) = true
    · rw [if_pos h1]
      simp only [Bool.and_eq_true, Bool.not_eq_true', decide_eq_true_eq] at h1
      obtain ⟨rfl, rfl⟩ := h1
      simp [queryText, queryRest, notHash, List.dropWhile_cons, List.takeWhile_cons, drop_eq_cons h]
    · rw [if_neg h1]
      have := ih (i + 1) (buffer ++ [c]) (unitLog c cs ++ log) (drop_eq_cons h)
      dsimp only at this
      rw [this]
      cases ov with
      | true => simp [queryText, queryRest]
      | false =>
        have hn : notHash c = true := by simpa [notHash] using h1
        simp [queryText, queryRest, hn, List.dropWhile_cons, List.takeWhile_cons]

theorem parseQuery_on (e : Encoding) (s : Str) (i : Nat) (url : Rec) (ov : Option PState) :
    (parseQuery e s i url ov).on s = sQuery e ov (s.drop i) url := by
  unfold parseQuery sQuery
  have := queryLoop_on ov.isSome s (s.drop i) i [] [] rfl
  dsimp only at this ⊢
  generalize queryLoop ov.isSome (s.drop i) i [] [] = r at this
  obtain ⟨b, hash, ix, lg⟩ := r
  simp only [Prod.mk.injEq, List.nil_append] at this
  obtain ⟨rfl, rfl, h3⟩ := this
  simp only [Bool.not_not, Out.on_ite, Out.on_to, h3]
  split
  · rename_i h
    simp only [Bool.and_eq_true, List.isEmpty_iff] at h
    rw [h.2]; rfl
  · cases url.query with
    | none => rfl
    | some q =>
      simp only [Out.on_to, h3]
      cases (queryRest ov.isSome (s.drop i)).isEmpty <;> rfl

theorem parseFragment_on (s : Str) (i : Nat) (url : Rec) :
    (parseFragment s i url).on s = sFragment (s.drop i) url := by
  unfold parseFragment sFragment
  dsimp only
  have h : s.drop (i + (s.drop i).length) = [] := by
    rw [← List.drop_drop, List.drop_length]
  simp only [Out.on_ite, Out.on_to, h]
  split
  · rfl
  · cases url.fragment with
    | none => rfl
    | some f => simp only [Out.on_to, h]

/-! ### scheme -/

theorem schemeScan_eq (s : Str) (rest : Str) : ∀ (i : Nat) (buffer : Str), s.drop i = rest →
    (schemeScan rest i buffer).map (fun r => (r.1, s.drop r.2)) =
      (match rest.dropWhile isSchemeChar with
        | [] => none
        | d :: r => if d = c!":" then some (buffer ++ rest.takeWhile isSchemeChar, r) else none) := by
  induction rest with
  | nil => intro i buffer h; rfl
  | cons c cs ih =>
    intro i buffer h
    unfold schemeScan
    by_cases h1 : isSchemeChar c = true
    · rw [if_pos h1, ih _ _ (drop_eq_cons h), List.dropWhile_cons, if_pos h1, List.takeWhile_cons, if_pos h1]
      simp
    · rw [if_neg h1, List.dropWhile_cons, if_neg h1, List.takeWhile_cons, if_neg h1]
      by_cases h2 : c = 58
      · simp [h2, drop_eq_cons h]
      · simp [h2]

theorem parseScheme_on (s : Str) (i : Nat) (base : Option Rec) (url : Rec) (ov : Option PState) :
    (parseScheme s i base url ov).on s = sScheme base ov (s.drop i) url := by
  unfold parseScheme sScheme takeScheme
  dsimp only
  cases h : s.drop i with
  | nil => simp only [Out.on_ite, Out.on_to, Out.on_fail, h]
  | cons c cs =>
    simp only [Out.on_ite, Out.on_to, Out.on_fail, h]
    by_cases ha : (!isAlpha c) = true
    · simp only [ha, if_true]
    · simp only [ha, if_false]
      have hs := schemeScan_eq s cs (i + 1) [c] (drop_eq_cons h)
      cases hsc : schemeScan cs (i + 1) [c] with
      | none =>
        rw [hsc] at hs
        simp only [Option.map_none] at hs
        cases hd : cs.dropWhile isSchemeChar with
        | nil => simp only [Out.on_ite, Out.on_to, Out.on_fail, h, Bool.false_eq_true, if_false]
        | cons d r =>
          rw [hd] at hs
          by_cases h58 : d = 58
          · simp [h58] at hs
          · simp only [h58, Out.on_ite, Out.on_to, Out.on_fail, h, Bool.false_eq_true, if_false]
      | some br =>
        obtain ⟨b, ix⟩ := br
        rw [hsc] at hs
        simp only [Option.map_some] at hs
        cases hd : cs.dropWhile isSchemeChar with
        | nil => rw [hd] at hs; simp at hs
        | cons d r =>
          rw [hd] at hs
          by_cases h58 : d = 58
          · simp only [h58, if_true, Option.some.injEq, Prod.mk.injEq, List.cons_append, List.nil_append] at hs
            obtain ⟨rfl, h2⟩ := hs
            simp only [h58, if_true, Bool.false_eq_true, if_false]
            simp only [Out.on_ite, Out.on_to, h2, drop_of_take]
            split
            · unfold overrideScheme
              split <;> rfl
            · split
              · rfl
              · split
                · cases base <;> simp only [Out.on_to, h2, Out.on_ite]
                · rfl
          · simp [h58] at hs

theorem ignoreSlashes_on (s : Str) (rest : Str) : ∀ (i : Nat) (log : Log), s.drop i = rest →
    s.drop (ignoreSlashes rest i log).1 = rest.dropWhile isSlash := by
  induction rest with
  | nil => intro i log h; exact h
  | cons c cs ih =>
    intro i log h
    unfold ignoreSlashes
    rw [List.dropWhile_cons]
    by_cases h1 : (decide (c = 47) || decide (c = 92)) = true
    · rw [if_pos h1, if_pos (by exact h1), ih _ _ (drop_eq_cons h)]
    · rw [if_neg h1, if_neg (by exact h1)]; exact h

/-! ### one step -/

theorem step_on (env : Env) (e : Encoding) (s : Str) (base : Option Rec) (ov : Option PState) (st : PState)
    (i : Nat) (url : Rec) :
    (step env e s base ov st i url).on s = sstep env e base ov st (s.drop i) url := by
  cases st
  case eof => rfl
  case scheme => rfl
  case authority => exact parseAuthority_on s i url
  case fileHost => exact parseFileHost_on env s i url ov
  case fileSlash => exact parseFileSlash_on s i base url
  case file => exact parseFile_on s i base url
  case fragment => exact parseFragment_on s i url
  case hostname => exact parseHost_on env s i url ov
  case host => exact parseHost_on env s i url ov
  case noScheme => exact parseNoScheme_on s i base url
  case opaquePath => exact parseOpaquePath_on s i url
  case pathOrAuthority => exact parsePathOrAuthority_on s i url
  case pathStart => exact parsePathStart_on s i url ov
  case path => exact parsePath_on s i url ov
  case port => exact parsePort_on env s i url ov
  case query => exact parseQuery_on e s i url ov
  case relativeSlash => exact parseRelativeSlash_on s i base url
  case relative => exact parseRelative_on s i base url
  case schemeStart => exact parseScheme_on s i base url ov
  case specialAuthorityIgnoreSlashes =>
    show (parseSpecialAuthorityIgnoreSlashes s i url).on s = _
    unfold parseSpecialAuthorityIgnoreSlashes
    simp only [Out.on_to, ignoreSlashes_on s _ i [] rfl]; rfl
  case specialAuthoritySlashes =>
    show (parseSpecialAuthoritySlashes s i url).on s = sSpecialAuthoritySlashes _ _
    unfold parseSpecialAuthoritySlashes sSpecialAuthoritySlashes
    simp only [Out.on_ite, Out.on_to, List.drop_drop, Nat.add_comm]
  case specialRelativeOrAuthority =>
    show (parseSpecialRelativeOrAuthority s i url).on s = sSpecialRelativeOrAuthority _ _
    unfold parseSpecialRelativeOrAuthority sSpecialRelativeOrAuthority
    simp only [Out.on_ite, Out.on_to, List.drop_drop, Nat.add_comm]

end Urlstd
