/-
The validation errors recorded by the parser: every failure records one, and an incomplete record
(`LogEv.broken`) is only made by a call that raises the bare ValueError of the digit limit.
-/
import Verif.Lemmas.Eval
import Verif.Lemmas.HostErr

set_option linter.unusedSimpArgs false
set_option linter.unusedVariables false

namespace Urlstd

/-- no incomplete record -/
def Clean (log : Log) : Prop := ∀ t, LogEv.broken t ∉ log

/-- at least one complete record -/
def Recorded (log : Log) : Prop := ∃ t, LogEv.ev t ∈ log

/-- the last record, and only that, is incomplete -/
def Broken (log : Log) : Prop := ∃ t l, log = .broken t :: l ∧ Clean l

/-- what the recorded errors say about the outcome of a call -/
structure LogOK {α : Type} (res : Except Err α) (log : Log) : Prop where
  clean : res ≠ .error .valueError → Clean log
  recorded : ∀ e, res = .error e → e.isURLParseError = true → Recorded log
  once : Clean log ∨ Broken log

theorem Clean.nil : Clean [] := fun _ h => by cases h
theorem Clean.cons {t : VErr} {log : Log} (h : Clean log) : Clean (.ev t :: log) := by
  intro t' ht
  rcases List.mem_cons.1 ht with h' | h'
  · cases h'
  · exact h t' h'
theorem Clean.append {a b : Log} (ha : Clean a) (hb : Clean b) : Clean (a ++ b) := by
  intro t ht
  rcases List.mem_append.1 ht with h | h
  · exact ha t h
  · exact hb t h
theorem Clean.ite {c : Prop} [Decidable c] {a b : Log} (ha : Clean a) (hb : Clean b) :
    Clean (if c then a else b) := by split <;> assumption

theorem Recorded.left {a : Log} (h : Recorded a) (b : Log) : Recorded (a ++ b) :=
  h.imp fun _ h => List.mem_append_left _ h
theorem Recorded.right {b : Log} (h : Recorded b) (a : Log) : Recorded (a ++ b) :=
  h.imp fun _ h => List.mem_append_right _ h
theorem Recorded.head (t : VErr) (log : Log) : Recorded (.ev t :: log) := ⟨t, List.mem_cons_self⟩

theorem LogOK.ok {α : Type} (a : α) {log : Log} (h : Clean log) : LogOK (.ok a) log :=
  ⟨fun _ => h, (fun _ he => by cases he), .inl h⟩
theorem LogOK.err {α : Type} (e : Err) (t : VErr) {log : Log} (h : Clean log) :
    LogOK (.error e : Except Err α) (.ev t :: log) :=
  ⟨fun _ => h.cons, fun _ _ _ => .head _ _, .inl h.cons⟩
theorem LogOK.value {α : Type} {log : Log} (h : Clean log ∨ Broken log) :
    LogOK (.error .valueError : Except Err α) log :=
  ⟨fun h => absurd rfl h, (fun e he h => by
    cases he; cases h), h⟩
/-- an exception that is neither a URLParseError nor a ValueError -/
theorem LogOK.other {α : Type} {e : Err} {log : Log} (hc : Clean log) (h : e.isURLParseError = false) :
    LogOK (.error e : Except Err α) log :=
  ⟨fun _ => hc, (fun e' he h' => by cases he; rw [h] at h'; cases h'), .inl hc⟩
theorem LogOK.map {α β : Type} {e : Err} {log : Log} (h : LogOK (.error e : Except Err α) log) :
    LogOK (.error e : Except Err β) log :=
  ⟨fun h' => h.clean (by simpa using h'), fun e' he h' => h.recorded e' (by simpa using he) h', h.once⟩
theorem LogOK.append {α : Type} {res : Except Err α} {a b : Log} (h : LogOK res a) (hb : Clean b) :
    LogOK res (a ++ b) :=
  ⟨fun h' => (h.clean h').append hb, fun e he h' => (h.recorded e he h').left _,
    h.once.elim (fun h => .inl (h.append hb)) fun ⟨t, l, h, hl⟩ => .inr ⟨t, l ++ b, by rw [h]; rfl, hl.append hb⟩⟩
theorem LogOK.cleanOf {α : Type} {a : α} {log : Log} (h : LogOK (.ok a : Except Err α) log) : Clean log :=
  h.clean (by simp)

theorem unitLog_clean (c : Nat) (cs : Str) : Clean (unitLog c cs) := by
  unfold unitLog
  exact .ite (.cons .nil) (.ite (.cons .nil) .nil)

/-! ### Hosts -/

theorem domainToAscii_log (env : Env) (d : Str) (b : Bool) :
    LogOK (domainToAscii env d b).res (domainToAscii env d b).log := by
  unfold domainToAscii
  split
  · exact .err _ _ .nil
  · dsimp only
    generalize maskErrors _ _ = m
    split
    · exact .err _ _ .nil
    · split
      · exact .err _ _ .nil
      · exact .ok _ .nil

theorem domainToUnicode_log (env : Env) (d : Str) (b : Bool) :
    LogOK (domainToUnicode env d b).res (domainToUnicode env d b).log := by
  unfold domainToUnicode
  split
  · exact .err _ _ .nil
  · split
    · exact .ok _ (.cons .nil)
    · exact .ok _ .nil

theorem parseOpaqueHost_log (h : Str) : LogOK (parseOpaqueHost h).res (parseOpaqueHost h).log := by
  unfold parseOpaqueHost
  split
  · exact .err _ _ .nil
  · exact .ok _ (.ite (.cons .nil) .nil)

theorem ipv4Numbers_log (env : Env) (parts : List Str) : ∀ (ns : List Nat) (log : Log), Clean log →
    LogOK (ipv4Numbers env parts ns log).res (ipv4Numbers env parts ns log).log := by
  induction parts with
  | nil => intro ns log h; exact .ok _ h
  | cons p ps ih =>
    intro ns log h
    unfold ipv4Numbers
    dsimp only
    split
    · exact .err _ _ h
    · exact ih _ _ (.ite h.cons h)

theorem ipv4Parse_log (env : Env) (s : Str) : LogOK (ipv4Parse env s).res (ipv4Parse env s).log := by
  unfold ipv4Parse
  dsimp only
  have h0 : ∀ b : Bool, Clean (if b then [LogEv.ev .ipv4EmptyPart] else []) := fun b => .ite (.cons .nil) .nil
  generalize (if (_ && _) = true then _ else _ : List Str) = parts
  split
  · exact .err _ _ (h0 _)
  · have hn := ipv4Numbers_log env parts [] _ (h0 ((splitOn c!"." s).getLastD []).isEmpty)
    split
    · rename_i e log heq
      rw [heq] at hn
      exact hn.map
    · rename_i ns log heq
      rw [heq] at hn
      have hc := hn.cleanOf
      have hc2 : ∀ b : Bool, Clean (if b then LogEv.ev .ipv4OutOfRangePart :: log else log) :=
        fun b => .ite hc.cons hc
      have hv : ∀ b c : Bool, Clean (if b then LogEv.broken .undefined :: (if c then .ev .ipv4OutOfRangePart :: log else log)
            else if c then .ev .ipv4OutOfRangePart :: log else log) ∨
          Broken (if b then LogEv.broken .undefined :: (if c then .ev .ipv4OutOfRangePart :: log else log)
            else if c then .ev .ipv4OutOfRangePart :: log else log) := by
        intro b c
        cases b
        · exact .inl (hc2 c)
        · exact .inr ⟨_, _, rfl, hc2 c⟩
      split
      · exact .value (.inr ⟨_, _, rfl, hc⟩)
      · split
        · split
          · exact .value (hv _ _)
          · exact .err _ _ (hc2 _)
        · split
          · split
            · exact .value (hv _ _)
            · exact .err _ _ (hc2 _)
          · exact .ok _ (hc2 _)

theorem v6IPv4_log (env : Env) (st : V6) (b : Bool) : LogOK (v6IPv4 env st b).res (v6IPv4 env st b).log := by
  unfold v6IPv4
  split
  · exact .err _ _ .nil
  · dsimp only
    split
    · exact .err _ _ .nil
    · split
      · exact .value (.inl .nil)
      · split
        · exact .err _ _ .nil
        · split
          · split
            · exact .ok _ .nil
            · exact .other .nil rfl
          · exact .err _ _ .nil

theorem v6Piece_log (env : Env) (st : V6) (b : Bool) : LogOK (v6Piece env st b).res (v6Piece env st b).log := by
  unfold v6Piece
  split
  · exact .ok _ .nil
  · split
    · split
      · exact .err _ _ .nil
      · split
        · exact .value (.inl .nil)
        · split
          · exact .ok _ .nil
          · exact .other .nil rfl
    · exact v6IPv4_log ..

theorem v6Loop_log (env : Env) (s : Str) : ∀ st : V6, LogOK (v6Loop env s st).res (v6Loop env s st).log := by
  induction s with
  | nil =>
    intro st
    unfold v6Loop
    split
    · exact .err _ _ .nil
    · split
      · split
        · exact .ok _ .nil
        · exact .err _ _ .nil
      · exact v6Piece_log ..
  | cons c cs ih =>
    intro st
    unfold v6Loop
    split
    · exact .err _ _ .nil
    · split
      · exact ih _
      · split
        · split
          · exact .err _ _ .nil
          · exact ih _
        · have hp := v6Piece_log env st true
          split
          · rename_i heq
            rw [heq] at hp
            exact hp.map
          · exact ih _

theorem ipv6Parse_log (env : Env) (s : Str) : LogOK (ipv6Parse env s).res (ipv6Parse env s).log := by
  have hr : ∀ rest st, LogOK (v6Run env rest st).res (v6Run env rest st).log := by
    intro rest st
    unfold v6Run
    have hp := v6Loop_log env rest st
    split
    · rename_i heq
      rw [heq] at hp
      exact hp.map
    · unfold v6Finish
      split
      · split
        · exact .ok _ .nil
        · exact .other .nil rfl
      · split
        · exact .err _ _ .nil
        · exact .ok _ .nil
  unfold ipv6Parse
  dsimp only
  split
  · exact .err _ _ .nil
  · exact hr _ _

theorem hostParse_log (env : Env) (host : Str) (m : Bool) :
    LogOK (hostParse env host m).res (hostParse env host m).log := by
  unfold hostParse
  split
  · exact .ok _ .nil
  · rename_i h0 ht
    split
    · split
      · exact .err _ _ .nil
      · have h := ipv6Parse_log env ht.dropLast
        split
        · rename_i heq; rw [heq] at h; exact .ok _ h.cleanOf
        · rename_i heq; rw [heq] at h; exact h.map
    · split
      · have h := parseOpaqueHost_log (h0 :: ht)
        split
        · rename_i heq; rw [heq] at h; exact .ok _ h.cleanOf
        · rename_i heq; rw [heq] at h; exact h.map
      · have h := domainToAscii_log env (utf8Decode (stringPercentDecode (h0 :: ht))) false
        split
        · rename_i heq; rw [heq] at h; exact h.map
        · rename_i ascii log heq
          rw [heq] at h
          have hc := h.cleanOf
          split
          · exact .err _ _ hc
          · split
            · have h4 := ipv4Parse_log env ascii
              split
              · rename_i heq; rw [heq] at h4; exact .ok _ (h4.cleanOf.append hc)
              · rename_i heq; rw [heq] at h4; exact h4.map.append hc
            · exact .ok _ hc

/-! ### The states of the parser -/

/-- the outcome and the records of one state agree -/
def Out.Logged (o : Out) : Prop := LogOK o.res o.log

theorem logged_to (st : PState) (i : Nat) (u : Rec) {log : Log} (h : Clean log) : (Out.to st i u log).Logged := .ok _ h
theorem logged_fail (e : Err) (t : VErr) (u : Rec) {log : Log} (h : Clean log) :
    (Out.fail e u (.ev t :: log)).Logged := .err _ _ h
theorem logged_ite {c : Prop} [Decidable c] {a b : Out} (ha : a.Logged) (hb : b.Logged) : (if c then a else b).Logged := by
  split <;> assumption
theorem logged_bug {e : Err} {log : Log} (hc : Clean log) (h : e.isURLParseError = false) (u : Rec) :
    (Out.fail e u log).Logged := .other hc h

theorem authorityLoop_logged (special : Bool) (s : Str) : ∀ (i : Nat) (b : Str) (at' pw : Bool) (u : Rec) (log : Log),
    Clean log → (authorityLoop special s i b at' pw u log).Logged := by
  have he : ∀ i b at' u log, Clean log → (authorityEnd i b at' u log).Logged := by
    intro i b at' u log h
    unfold authorityEnd
    exact logged_ite (logged_fail _ _ _ h) (logged_to _ _ _ h)
  induction s with
  | nil => intro i b at' pw u log h; exact he _ _ _ _ _ h
  | cons c cs ih =>
    intro i b at' pw u log h
    unfold authorityLoop
    exact logged_ite (ih _ _ _ _ _ _ h.cons) (logged_ite (he _ _ _ _ _ h) (ih _ _ _ _ _ _ h))

theorem parseFile_logged (s : Str) (i : Nat) (base : Option Rec) (u : Rec) : (parseFile s i base u).Logged := by
  unfold parseFile
  dsimp only
  have key : ∀ url : Rec, Out.Logged (match base with
    | none => Out.to .path i url
    | some b =>
      if b.scheme = u!"file" then
        match List.drop i s with
        | [] => Out.to .path i { url with host := b.host, path := b.path, query := b.query }
        | c :: _ =>
          if c = c!"?" then
            Out.to .query (i + 1) { url with host := b.host, path := b.path, query := some [] }
          else if c = c!"#" then
            Out.to .fragment (i + 1)
              { url with host := b.host, path := b.path, query := b.query, fragment := some [] }
          else if (!startsWithWindowsDriveLetter (List.drop i s)) = true then
              match shortenRec { url with host := b.host, path := b.path, query := none } with
              | some url => Out.to .path i url
              | none => Out.fail .assertionError { url with host := b.host, path := b.path, query := none }
            else
              Out.to .path i { url with host := b.host, path := .list [], query := none }
                [.ev .fileInvalidWindowsDriveLetter]
      else Out.to .path i url) := by
    intro url
    cases base with
    | none => exact logged_to _ _ _ .nil
    | some b =>
      refine logged_ite ?_ (logged_to _ _ _ .nil)
      split
      · exact logged_to _ _ _ .nil
      · refine logged_ite (logged_to _ _ _ .nil) (logged_ite (logged_to _ _ _ .nil) (logged_ite ?_ (logged_to _ _ _ (.cons .nil))))
        split
        · exact logged_to _ _ _ .nil
        · exact logged_bug .nil rfl _
  split
  · exact logged_ite (logged_to _ _ _ .nil) (logged_ite (logged_to _ _ _ (.cons .nil))
      (key { u with scheme := u!"file", host := some (.str []) }))
  · exact key { u with scheme := u!"file", host := some (.str []) }

theorem parseFileSlash_logged (s : Str) (i : Nat) (base : Option Rec) (u : Rec) : (parseFileSlash s i base u).Logged := by
  unfold parseFileSlash
  dsimp only
  have key : ∀ b : Bool, Out.Logged (match base with
    | none => Out.to .path i u
    | some b =>
      if b.scheme = u!"file" then
        match b.path with
        | .list (p0 :: _) =>
          if (!startsWithWindowsDriveLetter (List.drop i s) && isNormalizedWindowsDriveLetter p0) = true then
            match u.path with
            | .list p => Out.to .path i { u with host := b.host, path := .list (p ++ [p0]) }
            | .opaque _ => Out.fail .assertionError { u with host := b.host }
          else Out.to .path i { u with host := b.host }
        | _ => Out.to .path i { u with host := b.host }
      else Out.to .path i u) := by
    intro _
    cases base with
    | none => exact logged_to _ _ _ .nil
    | some b =>
      refine logged_ite ?_ (logged_to _ _ _ .nil)
      split
      · refine logged_ite ?_ (logged_to _ _ _ .nil)
        split
        · exact logged_to _ _ _ .nil
        · exact logged_bug .nil rfl _
      · exact logged_to _ _ _ .nil
  split
  · exact logged_ite (logged_to _ _ _ .nil) (logged_ite (logged_to _ _ _ (.cons .nil)) (key true))
  · exact key true

theorem fileHostLoop_logged (env : Env) (ov : Bool) (s : Str) : ∀ (i : Nat) (b : Str) (u : Rec),
    (fileHostLoop env ov s i b u).Logged := by
  have he : ∀ i b u, (fileHostEnd env ov i b u).Logged := by
    intro i b u
    unfold fileHostEnd
    refine logged_ite (logged_to _ _ _ (.cons .nil)) (logged_ite (logged_to _ _ _ .nil) ?_)
    have h := hostParse_log env b (!u.isSpecial)
    split
    · rename_i heq; rw [heq] at h; exact h.map
    · rename_i heq; rw [heq] at h; exact logged_to _ _ _ h.cleanOf
  induction s with
  | nil => intro i b u; exact he _ _ _
  | cons c cs ih =>
    intro i b u
    unfold fileHostLoop
    exact logged_ite (he _ _ _) (ih _ _ _)

theorem unitsLog_clean (s : Str) : Clean (unitsLog s) := by
  induction s with
  | nil => exact .nil
  | cons c cs ih => exact ih.append (unitLog_clean _ _)

theorem parseFragment_logged (s : Str) (i : Nat) (u : Rec) : (parseFragment s i u).Logged := by
  unfold parseFragment
  dsimp only
  refine logged_ite (logged_to _ _ _ .nil) ?_
  split
  · exact logged_bug (unitsLog_clean _) rfl _
  · exact logged_to _ _ _ (unitsLog_clean _)

theorem hostLoop_logged (env : Env) (ov : Option PState) (s : Str) : ∀ (i : Nat) (b : Str) (ins : Bool) (u : Rec),
    (hostLoop env ov s i b ins u).Logged := by
  have he : ∀ i b u, (hostEnd env ov.isSome i b u).Logged := by
    intro i b u
    unfold hostEnd
    refine logged_ite (logged_fail _ _ _ .nil) (logged_ite (logged_to _ _ _ .nil) ?_)
    have h := hostParse_log env b (!u.isSpecial)
    split
    · rename_i heq; rw [heq] at h; exact h.map
    · rename_i heq; rw [heq] at h; exact logged_to _ _ _ h.cleanOf
  induction s with
  | nil => intro i b ins u; exact he _ _ _
  | cons c cs ih =>
    intro i b ins u
    unfold hostLoop
    refine logged_ite (logged_ite (logged_fail _ _ _ .nil) (logged_ite (logged_to _ _ _ .nil) ?_))
      (logged_ite (he _ _ _) (ih _ _ _ _))
    have h := hostParse_log env b (!u.isSpecial)
    split
    · rename_i heq; rw [heq] at h; exact h.map
    · rename_i heq; rw [heq] at h; exact logged_to _ _ _ h.cleanOf

theorem opaqueLoop_logged (s : Str) : ∀ (i : Nat) (u : Rec) (log : Log), Clean log → (opaqueLoop s i u log).Logged := by
  induction s with
  | nil => intro i u log h; exact logged_to _ _ _ h
  | cons c cs ih =>
    intro i u log h
    unfold opaqueLoop
    exact logged_ite (logged_to _ _ _ h) (logged_ite (logged_to _ _ _ h) (ih _ _ _ ((unitLog_clean _ _).append h)))

theorem pathLoop_clean (scheme : Str) (ov : Bool) (s : Str) : ∀ (i : Nat) (b : Str) (p : List Str) (log : Log),
    Clean log → Clean (pathLoop scheme ov s i b p log).2.2.2 := by
  induction s with
  | nil => intro i b p log h; exact h
  | cons c cs ih =>
    intro i b p log h
    unfold pathLoop
    split
    · exact ih _ _ _ _ h
    · split
      · exact ih _ _ _ _ h.cons
      · split
        · exact h
        · split
          · exact h
          · exact ih _ _ _ _ ((unitLog_clean _ _).append h)

theorem portLoop_logged (env : Env) (ov : Bool) (s : Str) : ∀ (i : Nat) (b : Str) (u : Rec),
    (portLoop env ov s i b u).Logged := by
  have he : ∀ i b u, (portEnd env ov i b u).Logged := by
    intro i b u
    unfold portEnd
    dsimp only
    refine logged_ite (logged_to _ _ _ .nil) ?_
    split
    · exact .value (.inl .nil)
    · exact logged_ite (logged_fail _ _ _ .nil) (logged_to _ _ _ .nil)
  induction s with
  | nil => intro i b u; exact he _ _ _
  | cons c cs ih =>
    intro i b u
    unfold portLoop
    exact logged_ite (ih _ _ _) (logged_ite (he _ _ _) (logged_fail _ _ _ .nil))

theorem queryLoop_clean (ov : Bool) (s : Str) : ∀ (i : Nat) (b : Str) (log : Log),
    Clean log → Clean (queryLoop ov s i b log).2.2.2 := by
  induction s with
  | nil => intro i b log h; exact h
  | cons c cs ih =>
    intro i b log h
    unfold queryLoop
    split
    · exact h
    · exact ih _ _ _ ((unitLog_clean _ _).append h)

theorem ignoreSlashes_clean (s : Str) : ∀ (i : Nat) (log : Log), Clean log → Clean (ignoreSlashes s i log).2 := by
  induction s with
  | nil => intro i log h; exact h
  | cons c cs ih =>
    intro i log h
    unfold ignoreSlashes
    split
    · exact ih _ _ h.cons
    · exact h

theorem parseScheme_logged (s : Str) (i : Nat) (base : Option Rec) (u : Rec) : (parseScheme s i base u none).Logged := by
  have hb : (if (none : Option PState).isNone = true then Out.to .noScheme i u else .fail .urlParse u).Logged :=
    logged_to _ _ _ .nil
  unfold parseScheme
  dsimp only
  split
  · exact hb
  · refine logged_ite hb ?_
    split
    · exact hb
    · refine logged_ite (logged_ite (logged_to _ _ _ .nil) (logged_to _ _ _ .nil)) (logged_ite (logged_to _ _ _ (.ite .nil (.cons .nil))) (logged_ite ?_ (logged_ite ?_ ?_)))
      · exact logged_ite (logged_to _ _ _ .nil) (logged_to _ _ _ .nil)
      · exact logged_to _ _ _ .nil
      · exact logged_to _ _ _ .nil

theorem step_logged (env : Env) (e : Encoding) (s : Str) (base : Option Rec) (st : PState) (i : Nat) (u : Rec) :
    (step env e s base none st i u).Logged := by
  cases st <;> unfold step <;> dsimp only
  case eof => exact logged_bug .nil rfl _
  case scheme => exact logged_bug .nil rfl _
  case authority => exact authorityLoop_logged _ _ _ _ _ _ _ _ .nil
  case fileHost => exact fileHostLoop_logged ..
  case fileSlash => exact parseFileSlash_logged ..
  case file => exact parseFile_logged ..
  case fragment => exact parseFragment_logged ..
  case hostname => exact hostLoop_logged ..
  case host => exact hostLoop_logged ..
  case noScheme =>
    unfold parseNoScheme
    split
    · exact logged_fail _ _ _ .nil
    · exact logged_ite (logged_fail _ _ _ .nil) (logged_ite (logged_to _ _ _ .nil) (logged_ite (logged_to _ _ _ .nil)
        (logged_to _ _ _ .nil)))
  case opaquePath => exact opaqueLoop_logged _ _ _ _ .nil
  case pathOrAuthority => exact logged_ite (logged_to _ _ _ .nil) (logged_to _ _ _ .nil)
  case pathStart =>
    unfold parsePathStart
    dsimp only
    refine logged_ite (logged_ite (logged_to _ _ _ (.cons .nil)) (logged_ite (logged_to _ _ _ .nil) (logged_to _ _ _ .nil)))
      (logged_ite (logged_to _ _ _ .nil) (logged_ite (logged_to _ _ _ .nil) ?_))
    split
    · exact logged_to _ _ _ .nil
    · refine logged_ite ?_ (logged_to _ _ _ .nil)
      split
      · exact logged_to _ _ _ .nil
      · exact logged_bug .nil rfl _
  case path =>
    unfold parsePath
    split
    · exact logged_bug .nil rfl _
    · exact logged_to _ _ _ (pathLoop_clean _ _ _ _ _ _ _ .nil)
  case port => exact portLoop_logged ..
  case query =>
    unfold parseQuery
    dsimp only
    have hc := queryLoop_clean (none : Option PState).isSome (s.drop i) i [] [] .nil
    refine logged_ite (logged_to _ _ _ hc) ?_
    split
    · exact logged_bug hc rfl _
    · exact logged_to _ _ _ hc
  case relativeSlash =>
    unfold parseRelativeSlash
    dsimp only
    refine logged_ite (logged_to _ _ _ (.cons .nil)) (logged_ite (logged_to _ _ _ .nil) (logged_ite (logged_to _ _ _ .nil) ?_))
    split
    · exact logged_bug .nil rfl _
    · exact logged_to _ _ _ .nil
  case relative =>
    unfold parseRelative
    split
    · exact logged_bug .nil rfl _
    · refine logged_ite (logged_bug .nil rfl _) ?_
      dsimp only
      split
      · exact logged_to _ _ _ .nil
      · refine logged_ite (logged_to _ _ _ .nil) (logged_ite (logged_to _ _ _ (.cons .nil)) (logged_ite (logged_to _ _ _ .nil)
          (logged_ite (logged_to _ _ _ .nil) ?_)))
        split
        · exact logged_to _ _ _ .nil
        · exact logged_bug .nil rfl _
  case schemeStart => exact parseScheme_logged ..
  case specialAuthorityIgnoreSlashes => exact logged_to _ _ _ (ignoreSlashes_clean _ _ _ .nil)
  case specialAuthoritySlashes => exact logged_ite (logged_to _ _ _ .nil) (logged_to _ _ _ (.cons .nil))
  case specialRelativeOrAuthority => exact logged_ite (logged_to _ _ _ .nil) (logged_to _ _ _ (.cons .nil))

theorem run_log (env : Env) (e : Encoding) (s : Str) (base : Option Rec) (n : Nat) :
    ∀ (st : PState) (i : Nat) (u : Rec) (log : Log), Clean log →
      LogOK (run env e s base none n st i u log).res (run env e s base none n st i u log).log := by
  induction n with
  | zero =>
    intro st i u log h
    unfold run
    split
    · exact .ok _ h
    · exact .other h rfl
  | succ n ih =>
    intro st i u log h
    unfold run
    split
    · exact .ok _ h
    · have hg : LogOK (step env e s base none st i u).res (step env e s base none st i u).log :=
        step_logged env e s base st i u
      dsimp only
      split
      · rename_i heq; rw [heq] at hg; exact hg.map.append h
      · rename_i heq; rw [heq] at hg; exact ih _ _ _ _ (hg.cleanOf.append h)

theorem basicParse_log (env : Env) (s : Str) (base : Option Rec) (e : Encoding) :
    LogOK (basicParse env s base e).toExcept (basicParse env s base e).log := by
  have h : LogOK (basicParse env s base e).res (basicParse env s base e).log := by
    rw [basicParse_run]
    refine run_log _ _ _ _ _ _ _ _ _ ?_
    unfold initLog
    dsimp only
    exact .ite (.cons (.ite .nil (.cons .nil))) (.ite .nil (.cons .nil))
  unfold ParseOut.toExcept
  split
  · rename_i heq; rw [heq] at h; exact .ok _ h.cleanOf
  · rename_i heq; rw [heq] at h; exact h.map

theorem parseUrl_log (env : Env) (s : Str) (base : BaseArg) (e : Encoding) :
    LogOK (parseUrl env s base e).res (parseUrl env s base e).log := by
  unfold parseUrl
  dsimp only
  split
  · exact (basicParse_log ..).append .nil
  · exact (basicParse_log ..).append .nil
  · rename_i bs
    have h := basicParse_log env bs none e
    split
    · rename_i heq; rw [heq] at h; exact h.map
    · rename_i heq; rw [heq] at h; exact (basicParse_log ..).append h.cleanOf

end Urlstd
