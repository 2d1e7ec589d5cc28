/-
The standard's state machine follows the parser: files, ports, hosts, authorities.
-/
import Verif.Lemmas.Machine2

set_option linter.unusedSimpArgs false
set_option linter.unusedVariables false

namespace Urlstd

open Spec (IsStr IsScalarStr encodeCP encodeAfter encoder Letter Cfg Ctx Next Outcome Halts runState codePoint)

section
variable {env : Env} {e : Encoding} {base : Option Rec} {ov : Option PState} {s : Str} {K : Ctx}

theorem ov_isSome : (machine env e base ov).override.isSome = ov.isSome := by simp [machine]

/-! ### file host -/

theorem run_fileHost (c : Option Nat) (r buf : Str) (i : Int) (a b p : Bool) (u : Rec) :
    runState K c r ⟨.fileHost, i, buf, a, b, p, u⟩ =
      if c = none ∨ c = some c!"/" ∨ c = some c!"\\" ∨ c = some c!"?" ∨ c = some c!"#" then
        (if (!K.override.isSome && Spec.isDrive buf) = true then .go ⟨.path, i - 1, buf, a, b, p, u⟩
        else if buf = [] then
          (if K.override.isSome = true then .ret { u with host := some (.str []) }
          else .go ⟨.pathStart, i - 1, buf, a, b, p, { u with host := some (.str []) }⟩)
        else
          match K.hostParse buf (!Spec.isSpecial u.scheme) with
          | none => .failure u
          | some h =>
            if K.override.isSome = true then .ret { u with host := some (if h = .str u!"localhost" then .str [] else h) }
            else .go ⟨.pathStart, i - 1, [], a, b, p, { u with host := some (if h = .str u!"localhost" then .str [] else h) }⟩)
      else .go ⟨.fileHost, i, buf ++ c.toList, a, b, p, u⟩ := rfl

theorem pathEnd_char {u : Rec} {pp : List Str} {c : Nat} (h1 : isPathSep u.isSpecial c = false) (hq : notQF c = true) (raw rest : Str) :
    pathEnd ov u pp raw (c :: rest) = pathEnd ov u pp (raw ++ [c]) rest := by
  unfold pathEnd
  have e1 : pathText ov.isSome (c :: rest) = c :: pathText ov.isSome rest := by
    unfold pathText
    split
    · rfl
    · rw [List.takeWhile_cons_of_pos hq]
  have e2 : pathRest ov.isSome (c :: rest) = pathRest ov.isSome rest := by
    unfold pathRest
    split
    · rfl
    · rw [List.dropWhile_cons_of_pos hq]
  rw [e1, e2, pathPieces_char h1, consPiece_consPiece]

theorem drive_shape {t : Str} (h : isWindowsDriveLetter t = true) : ∃ x y, t = [x, y] ∧ isAlpha x = true ∧ (y = 58 ∨ y = 124) := by
  unfold isWindowsDriveLetter at h
  split at h
  · rename_i x y
    simp only [Bool.and_eq_true, Bool.or_eq_true, beq_iff_eq] at h
    exact ⟨x, y, rfl, h.1, h.2⟩
  · cases h

theorem encodeCP_keep {set : Nat → Bool} {c : Nat} (hc : c ≤ 0x7F) (h : set c = false) : encodeCP set c = [c] := by
  unfold encodeCP Spec.utf8CP Spec.percentEncode
  rw [if_pos hc]
  simp [h]

theorem drive_encoded {t : Str} (h : isWindowsDriveLetter t = true) : t.flatMap (encodeCP Spec.pathSet) = t := by
  obtain ⟨x, y, rfl, hx, hy⟩ := drive_shape h
  have hx2 : x ≤ 0x7F := by rw [isAlpha_iff] at hx; unfold Letter at hx; omega
  have h1 : ∀ c < 128, isAlpha c = true → Spec.pathSet c = false := by decide +kernel
  rw [List.flatMap_cons, List.flatMap_cons, List.flatMap_nil, encodeCP_keep hx2 (h1 x (by omega) hx)]
  rcases hy with rfl | rfl <;> rw [encodeCP_keep (by decide) (by decide)] <;> rfl

theorem m_fileHost_end (hS : SimOK env e base s) {r buf : Str} {i : Nat} (hd : s.drop i = r) (hi : i ≤ s.length)
    (hr : ∀ c, r.head? = some c → notFileHostEnd c = false) (a b p : Bool) {u : Rec} {pp : List Str} (hp : u.path = .list pp)
    (hb : IsScalarStr buf) :
    Halts (machine env e base ov) s ⟨.fileHost, i, buf, a, b, p, u⟩ (after env e base ov (sFileHostEnd env ov.isSome buf r u)) := by
  have h := run_fileHost (K := machine env e base ov) r.head? r.tail buf i a b p u
  rw [ov_isSome, isDrive_eq, isSpecial_rec] at h
  rw [if_pos (by
    cases r with
    | nil => exact .inl rfl
    | cons c cs =>
      have := hr c rfl
      unfold notFileHostEnd at this
      simp at this
      simp only [List.head?_cons, reduceCtorEq, Option.some.injEq, false_or]
      omega)] at h
  unfold sFileHostEnd
  by_cases h1 : (!ov.isSome && isWindowsDriveLetter buf) = true
  · rw [if_pos h1] at h
    rw [if_pos h1, after_to, E_path hp]
    refine m_stay hd hi h ?_
    have h2 : isWindowsDriveLetter buf = true := by simp at h1; exact h1.2
    have := m_path_loop (ov := ov) hS r i hd hi buf hb a b p u pp hp
    rw [drive_encoded h2] at this
    obtain ⟨x, y, rfl, hx, hy⟩ := drive_shape h2
    have hx' : isPathSep u.isSpecial x = false ∧ notQF x = true := by
      rw [isAlpha_iff] at hx
      unfold Letter at hx
      unfold isPathSep notQF
      constructor
      · simp; exact ⟨by omega, fun _ => by omega⟩
      · simp; omega
    have hy' : isPathSep u.isSpecial y = false ∧ notQF y = true := by
      unfold isPathSep notQF
      constructor
      · simp; exact ⟨by omega, fun _ => by omega⟩
      · simp; omega
    have e1 : pathEnd ov u pp [] ([x, y] ++ r) = pathEnd ov u pp [x, y] r := by
      show pathEnd ov u pp [] (x :: y :: r) = _
      rw [pathEnd_char hx'.1 hx'.2, pathEnd_char hy'.1 hy'.2]
      rfl
    rw [e1]
    exact this
  · rw [if_neg h1] at h
    rw [if_neg h1]
    by_cases h2 : buf = []
    · subst h2
      rw [if_pos rfl] at h
      rw [if_pos (by rfl), after_to]
      by_cases h3 : ov.isSome = true
      · rw [if_pos h3] at h
        rw [if_pos h3, E_eof]
        exact m_ret hd h
      · rw [if_neg h3] at h
        rw [if_neg h3]
        exact m_stay hd hi h (m_pathStart hS hd hi _ _ _ hp)
    · rw [if_neg h2] at h
      rw [if_neg (by simpa using h2)]
      have hK : (machine env e base ov).hostParse buf (!u.isSpecial) = hostOf env buf (!u.isSpecial) := rfl
      rw [hK] at h
      unfold hostOf at h
      cases hh : (hostParse env buf (!u.isSpecial)).res with
      | error err =>
        rw [hh] at h
        exact m_fail hd h
      | ok hst =>
        rw [hh] at h
        dsimp only at h ⊢
        rw [after_to]
        by_cases h3 : ov.isSome = true
        · rw [if_pos h3] at h
          rw [if_pos h3, E_eof]
          exact m_ret hd h
        · rw [if_neg h3] at h
          rw [if_neg h3]
          exact m_stay hd hi h (m_pathStart hS hd hi _ _ _ hp)

theorem m_fileHost_loop (hS : SimOK env e base s) (rest : Str) : ∀ (i : Nat) (hd : s.drop i = rest) (hi : i ≤ s.length)
    (buf : Str) (hb : IsScalarStr buf) (a b p : Bool) (u : Rec) (pp : List Str), u.path = .list pp →
    Halts (machine env e base ov) s ⟨.fileHost, i, buf, a, b, p, u⟩
      (after env e base ov (sFileHostEnd env ov.isSome (buf ++ rest.takeWhile notFileHostEnd) (rest.dropWhile notFileHostEnd) u)) := by
  induction rest with
  | nil =>
    intro i hd hi buf hb a b p u pp hp
    rw [List.takeWhile_nil, List.append_nil, List.dropWhile_nil]
    exact m_fileHost_end hS hd hi (by intro c hc; cases hc) a b p hp hb
  | cons c cs ih =>
    intro i hd hi buf hb a b p u pp hp
    by_cases hc : notFileHostEnd c = true
    · have h := run_fileHost (K := machine env e base ov) (some c) cs buf i a b p u
      rw [if_neg (by
        unfold notFileHostEnd at hc
        simp at hc
        simp [hc.1, hc.2])] at h
      refine m_adv hd h ?_
      rw [List.takeWhile_cons_of_pos hc, List.dropWhile_cons_of_pos hc]
      have hc1 : IsScalarStr [c] := (scalar_rest hS hd).mono fun x hx => by
          rw [List.mem_singleton] at hx; rw [hx]; simp
      have := ih (i + 1) (drop_next hd) (drop_lt hd) (buf ++ [c]) (hb.append hc1) a b p u pp hp
      simpa using this
    · rw [List.takeWhile_cons_of_neg hc, List.append_nil, List.dropWhile_cons_of_neg hc]
      exact m_fileHost_end hS hd hi (by intro x hx; cases hx; simpa using hc) a b p hp hb

theorem m_fileHost (hS : SimOK env e base s) {rest : Str} {i : Nat} (hd : s.drop i = rest) (hi : i ≤ s.length)
    (a b p : Bool) {u : Rec} {pp : List Str} (hp : u.path = .list pp) :
    Halts (machine env e base ov) s ⟨.fileHost, i, [], a, b, p, u⟩ (E env e base ov .fileHost rest u) := by
  rw [E_step (by decide)]
  exact m_fileHost_loop hS rest i hd hi [] .nil a b p u pp hp

/-! ### file slash, file -/

theorem run_fileSlash (c : Option Nat) (r buf : Str) (i : Int) (a b p : Bool) (u : Rec) :
    runState K c r ⟨.fileSlash, i, buf, a, b, p, u⟩ =
      if c = some c!"/" ∨ c = some c!"\\" then .go ⟨.fileHost, i, buf, a, b, p, u⟩
      else
        match K.base with
        | some bs =>
          if bs.scheme = u!"file" then
            .go ⟨.path, i - 1, buf, a, b, p,
              match (match bs.path with | .list (p :: _) => some p | _ => none : Option Str) with
              | some q =>
                if (!Spec.startsWithDrive (match c with | some x => x :: r | none => []) && Spec.isNormDrive q) = true then
                  Spec.pushSegment { u with host := bs.host } q else { u with host := bs.host }
              | none => { u with host := bs.host }⟩
          else .go ⟨.path, i - 1, buf, a, b, p, u⟩
        | none => .go ⟨.path, i - 1, buf, a, b, p, u⟩ := rfl

theorem here_eq (r : Str) : (match r.head? with | some x => x :: r.tail | none => [] : Str) = r := by
  cases r <;> rfl

theorem m_fileSlash (hS : SimOK env e base s) {rest : Str} {i : Nat} (hd : s.drop i = rest) (hi : i ≤ s.length)
    (a b p : Bool) {u : Rec} {pp : List Str} (hp : u.path = .list pp) :
    Halts (machine env e base ov) s ⟨.fileSlash, i, [], a, b, p, u⟩ (E env e base ov .fileSlash rest u) := by
  rw [E_step (by decide)]
  show Halts _ _ _ (after env e base ov (sFileSlash base rest u))
  have hb : (machine env e base ov).base = base := rfl
  have h := run_fileSlash (K := machine env e base ov) rest.head? rest.tail [] i a b p u
  rw [hb, here_eq, startsWithDrive_eq] at h
  have key : ¬ (rest.head? = some 47 ∨ rest.head? = some 92) →
      Halts (machine env e base ov) s ⟨.fileSlash, i, [], a, b, p, u⟩ (after env e base ov (sFileSlashPath base rest u)) := by
    intro hn
    rw [if_neg hn] at h
    unfold sFileSlashPath
    cases hbase : base with
    | none =>
      rw [hbase] at h
      dsimp only at h ⊢
      rw [← hbase, after_to]
      rw [← hbase] at h
      exact m_stay hd hi h (m_path hS hd hi _ _ _ hp)
    | some bs =>
      rw [hbase] at h
      dsimp only at h ⊢
      rw [← hbase] at h ⊢
      by_cases hf : bs.scheme = u!"file"
      · rw [if_pos hf] at h
        rw [if_pos hf]
        have hp' : ({ u with host := bs.host } : Rec).path = .list pp := hp
        cases hbp : bs.path with
        | «opaque» t =>
          rw [hbp] at h
          dsimp only at h ⊢
          rw [after_to]
          exact m_stay hd hi h (m_path hS hd hi _ _ _ hp')
        | list l =>
          rw [hbp] at h
          cases l with
          | nil =>
            dsimp only at h ⊢
            rw [after_to]
            exact m_stay hd hi h (m_path hS hd hi _ _ _ hp')
          | cons q l =>
            dsimp only at h ⊢
            rw [isNormDrive_eq] at h
            by_cases h2 : (!startsWithWindowsDriveLetter rest && isNormalizedWindowsDriveLetter q) = true
            · rw [if_pos h2] at h
              rw [if_pos h2, hp]
              dsimp only
              rw [after_to]
              unfold Spec.pushSegment at h
              dsimp only at h
              rw [hp] at h
              exact m_stay hd hi h (m_path hS hd hi _ _ _ rfl)
            · rw [if_neg h2] at h
              rw [if_neg h2, after_to]
              exact m_stay hd hi h (m_path hS hd hi _ _ _ hp')
      · rw [if_neg hf] at h
        rw [if_neg hf, after_to]
        exact m_stay hd hi h (m_path hS hd hi _ _ _ hp)
  unfold sFileSlash
  cases rest with
  | nil => exact key (by simp)
  | cons c cs =>
    dsimp only
    by_cases hc : c = 47 ∨ c = 92
    · rw [if_pos (by simpa using hc)] at h
      rw [if_pos (by simpa using hc), after_to]
      exact m_adv hd h (m_fileHost hS (drop_next hd) (drop_lt hd) _ _ _ hp)
    · rw [if_neg (by simpa using hc)]
      exact key (by simpa using hc)

theorem run_file (c : Option Nat) (r buf : Str) (i : Int) (a b p : Bool) (u : Rec) :
    runState K c r ⟨.file, i, buf, a, b, p, u⟩ =
      if c = some c!"/" ∨ c = some c!"\\" then
        .go ⟨.fileSlash, i, buf, a, b, p, { u with scheme := u!"file", host := some (.str []) }⟩
      else
        match K.base with
        | some bs =>
          if bs.scheme = u!"file" then
            match c with
            | some x =>
              if x = c!"?" then .go ⟨.query, i, buf, a, b, p,
                { u with scheme := u!"file", host := bs.host, path := bs.path, query := some [] }⟩
              else if x = c!"#" then .go ⟨.fragment, i, buf, a, b, p,
                { u with scheme := u!"file", host := bs.host, path := bs.path, query := bs.query, fragment := some [] }⟩
              else .go ⟨.path, i - 1, buf, a, b, p,
                if Spec.startsWithDrive (match c with | some x => x :: r | none => []) = true then
                  { u with scheme := u!"file", host := bs.host, path := .list [], query := none }
                else Spec.shorten { u with scheme := u!"file", host := bs.host, path := bs.path, query := none }⟩
            | none => .go ⟨.file, i, buf, a, b, p,
                { u with scheme := u!"file", host := bs.host, path := bs.path, query := bs.query }⟩
          else .go ⟨.path, i - 1, buf, a, b, p, { u with scheme := u!"file", host := some (.str []) }⟩
        | none => .go ⟨.path, i - 1, buf, a, b, p, { u with scheme := u!"file", host := some (.str []) }⟩ := by
  cases c <;> rfl

theorem m_file (hS : SimOK env e base s) {rest : Str} {i : Nat} (hd : s.drop i = rest) (hi : i ≤ s.length)
    (a b p : Bool) {u : Rec} {pp : List Str} (hp : u.path = .list pp)
    (hfile : rest = [] → ∀ b, base = some b → b.scheme ≠ u!"file") :
    Halts (machine env e base ov) s ⟨.file, i, [], a, b, p, u⟩ (E env e base ov .file rest u) := by
  rw [E_step (by decide)]
  show Halts _ _ _ (after env e base ov (sFile base rest u))
  have hb : (machine env e base ov).base = base := rfl
  have h := run_file (K := machine env e base ov) rest.head? rest.tail [] i a b p u
  rw [hb, here_eq, startsWithDrive_eq] at h
  have hp' : ({ u with scheme := u!"file", host := some (.str []) } : Rec).path = .list pp := hp
  have key : ¬ (rest.head? = some 47 ∨ rest.head? = some 92) →
      Halts (machine env e base ov) s ⟨.file, i, [], a, b, p, u⟩
        (after env e base ov (sFilePath base rest { u with scheme := u!"file", host := some (.str []) })) := by
    intro hn
    rw [if_neg hn] at h
    unfold sFilePath
    cases hbase : base with
    | none =>
      rw [hbase] at h
      dsimp only at h ⊢
      rw [← hbase, after_to]
      rw [← hbase] at h
      exact m_stay hd hi h (m_path hS hd hi _ _ _ hp')
    | some bs =>
      rw [hbase] at h
      dsimp only at h ⊢
      rw [← hbase] at h ⊢
      by_cases hf : bs.scheme = u!"file"
      · rw [if_pos hf] at h
        rw [if_pos hf]
        obtain ⟨q, hq⟩ := hS.base bs hbase (by rw [hf]; decide)
        cases rest with
        | nil => exact absurd hf (hfile rfl bs hbase)
        | cons c cs =>
          dsimp only [List.head?_cons] at h ⊢
          by_cases h1 : c = 63
          · rw [if_pos h1] at h
            rw [if_pos h1, after_to]
            exact m_adv hd h (m_query hS (drop_next hd) (drop_lt hd) _ _ _ rfl)
          · rw [if_neg h1] at h
            rw [if_neg h1]
            by_cases h2 : c = 35
            · rw [if_pos h2] at h
              rw [if_pos h2, after_to]
              exact m_adv hd h (m_fragment hS (drop_next hd) (drop_lt hd) _ _ _ _ rfl)
            · rw [if_neg h2] at h
              rw [if_neg h2]
              by_cases h3 : startsWithWindowsDriveLetter (c :: cs) = true
              · rw [if_pos h3] at h
                rw [if_neg (by simp [h3]), after_to]
                exact m_stay hd hi h (m_path hS hd hi _ _ _ rfl)
              · rw [if_neg h3, shorten_eq (u := { u with scheme := u!"file", host := bs.host, path := bs.path, query := none }) (p := q) hq] at h
                rw [if_pos (by simp [h3])]
                unfold shortenRec
                dsimp only at h ⊢
                rw [hq]
                exact m_stay hd hi h (m_path hS hd hi _ _ _ rfl)
      · rw [if_neg hf] at h
        rw [if_neg hf, after_to]
        exact m_stay hd hi h (m_path hS hd hi _ _ _ hp')
  unfold sFile
  cases rest with
  | nil => exact key (by simp)
  | cons c cs =>
    dsimp only
    by_cases hc : c = 47 ∨ c = 92
    · rw [if_pos (by simpa using hc)] at h
      rw [if_pos (by simpa using hc), after_to]
      exact m_adv hd h (m_fileSlash hS (drop_next hd) (drop_lt hd) _ _ _ hp')
    · rw [if_neg (by simpa using hc)]
      exact key (by simpa using hc)

/-! ### port -/

theorem endsAuthority_some (u : Rec) (c : Nat) : Spec.endsAuthority u (some c) = isAuthorityEnd u.isSpecial c := by
  unfold Spec.endsAuthority isAuthorityEnd
  rw [isSpecial_rec, Bool.eq_iff_iff]
  simp

theorem endsAuthority_none (u : Rec) : Spec.endsAuthority u none = true := by simp [Spec.endsAuthority]

theorem run_port (c : Option Nat) (r buf : Str) (i : Int) (a b p : Bool) (u : Rec) :
    runState K c r ⟨.port, i, buf, a, b, p, u⟩ =
      match c with
      | some x =>
        if Spec.Digit x then .go ⟨.port, i, buf ++ [x], a, b, p, u⟩
        else if (Spec.endsAuthority u c || K.override.isSome) = true then
          Spec.runState.portDone ⟨.port, i, buf, a, b, p, u⟩ K.override.isSome else .failure u
      | none => Spec.runState.portDone ⟨.port, i, buf, a, b, p, u⟩ K.override.isSome := rfl

theorem run_portDone (buf : Str) (i : Int) (a b p : Bool) (u : Rec) (o : Bool) :
    Spec.runState.portDone ⟨.port, i, buf, a, b, p, u⟩ o =
      if buf = [] then
        (if o = true then .ret u else .go ⟨.pathStart, i - 1, buf, a, b, p, u⟩)
      else if Spec.decimal buf > 2 ^ 16 - 1 then .failure u
      else if o = true then .ret { u with port := if Spec.isDefault u.scheme (Spec.decimal buf) then none else some (Spec.decimal buf) }
      else .go ⟨.pathStart, i - 1, [], a, b, p,
        { u with port := if Spec.isDefault u.scheme (Spec.decimal buf) then none else some (Spec.decimal buf) }⟩ := rfl

theorem m_portDone (hS : SimOK env e base s) {r buf : Str} {i : Nat} (hd : s.drop i = r) (hi : i ≤ s.length)
    (hb : ∀ c ∈ buf, isDigit c = true) (hl : buf.length ≤ i) (a b p : Bool) {u : Rec} {pp : List Str} (hp : u.path = .list pp)
    (h : runState (machine env e base ov) r.head? r.tail ⟨.port, i, buf, a, b, p, u⟩ =
      Spec.runState.portDone ⟨.port, i, buf, a, b, p, u⟩ ov.isSome) :
    Halts (machine env e base ov) s ⟨.port, i, buf, a, b, p, u⟩ (after env e base ov (sPortEnd env ov.isSome buf r u)) := by
  rw [run_portDone] at h
  unfold sPortEnd
  dsimp only
  by_cases h1 : buf = []
  · subst h1
    rw [if_pos rfl] at h
    rw [if_pos (by rfl), after_to]
    by_cases h3 : ov.isSome = true
    · rw [if_pos h3] at h
      rw [if_pos h3, E_eof]
      exact m_ret hd h
    · rw [if_neg h3] at h
      rw [if_neg h3]
      exact m_stay hd hi h (m_pathStart hS hd hi _ _ _ hp)
  · rw [if_neg h1] at h
    rw [if_neg (by simpa using h1), port_value env hb h1 (by
      rcases hS.digits with h | h
      · exact .inl h
      · exact .inr (by omega))]
    dsimp only
    have hv : (Int.ofNat (Spec.decimal buf)).toNat = Spec.decimal buf := rfl
    rw [hv]
    by_cases h2 : Spec.decimal buf > 65535
    · rw [if_pos h2] at h
      rw [if_pos h2, after_fail]
      exact m_fail hd h
    · rw [if_neg h2, isDefault_eq] at h
      rw [if_neg h2, after_to]
      by_cases h3 : ov.isSome = true
      · rw [if_pos h3] at h
        rw [if_pos h3, E_eof]
        exact m_ret hd h
      · rw [if_neg h3] at h
        rw [if_neg h3]
        exact m_stay hd hi h (m_pathStart hS hd hi _ _ _ hp)

theorem m_port_loop (hS : SimOK env e base s) (rest : Str) : ∀ (i : Nat) (hd : s.drop i = rest) (hi : i ≤ s.length)
    (buf : Str) (hb : ∀ c ∈ buf, isDigit c = true) (hl : buf.length ≤ i) (a b p : Bool) (u : Rec) (pp : List Str), u.path = .list pp →
    Halts (machine env e base ov) s ⟨.port, i, buf, a, b, p, u⟩
      (after env e base ov (sPortGo env ov.isSome (buf ++ rest.takeWhile isDigit) (rest.dropWhile isDigit) u)) := by
  induction rest with
  | nil =>
    intro i hd hi buf hb hl a b p u pp hp
    rw [List.takeWhile_nil, List.append_nil, List.dropWhile_nil]
    refine m_portDone hS hd hi hb hl a b p hp ?_
    rw [← ov_isSome (env := env) (e := e) (base := base)]
    rfl
  | cons c cs ih =>
    intro i hd hi buf hb hl a b p u pp hp
    have h := run_port (K := machine env e base ov) (some c) cs buf i a b p u
    dsimp only at h
    rw [endsAuthority_some, ov_isSome] at h
    have hdg : Spec.Digit c ↔ isDigit c = true := by rw [← digit_eq, decide_eq_true_eq]
    by_cases hc : isDigit c = true
    · rw [if_pos (hdg.2 hc)] at h
      refine m_adv hd h ?_
      rw [List.takeWhile_cons_of_pos hc, List.dropWhile_cons_of_pos hc]
      have := ih (i + 1) (drop_next hd) (drop_lt hd) (buf ++ [c]) (by
        intro x hx
        rcases List.mem_append.1 hx with hx | hx
        · exact hb x hx
        · rw [List.mem_singleton] at hx; rw [hx]; exact hc) (by simp; omega) a b p u pp hp
      simpa using this
    · rw [List.takeWhile_cons_of_neg hc, List.append_nil, List.dropWhile_cons_of_neg hc]
      rw [if_neg (fun h => hc (hdg.1 h))] at h
      unfold sPortGo
      dsimp only
      by_cases h2 : (isAuthorityEnd u.isSpecial c || ov.isSome) = true
      · rw [if_pos h2] at h
        rw [if_pos h2]
        exact m_portDone hS hd hi hb hl a b p hp h
      · rw [if_neg h2] at h
        rw [if_neg h2, after_fail]
        exact m_fail hd h

theorem m_port (hS : SimOK env e base s) {rest : Str} {i : Nat} (hd : s.drop i = rest) (hi : i ≤ s.length)
    (a b p : Bool) {u : Rec} {pp : List Str} (hp : u.path = .list pp) :
    Halts (machine env e base ov) s ⟨.port, i, [], a, b, p, u⟩ (E env e base ov .port rest u) := by
  rw [E_step (by decide)]
  exact m_port_loop hS rest i hd hi [] (by simp) (by simp) a b p u pp hp

/-! ### host -/

theorem run_host (c : Option Nat) (r buf : Str) (i : Int) (a b p : Bool) (u : Rec) {st : Spec.State} (hst : st = .host ∨ st = .hostname) :
    runState K c r ⟨st, i, buf, a, b, p, u⟩ =
      if (K.override.isSome && u.scheme == u!"file") = true then .go ⟨.fileHost, i - 1, buf, a, b, p, u⟩
      else if (c == some c!":" && !b) = true then
        (if buf = [] then .failure u
        else if K.override = some .hostname then .ret u
        else
          match K.hostParse buf (!Spec.isSpecial u.scheme) with
          | none => .failure u
          | some h => .go ⟨.port, i, [], a, b, p, { u with host := some h }⟩)
      else if Spec.endsAuthority u c = true then
        (if (Spec.isSpecial u.scheme && buf == []) = true then .failure u
        else if (K.override.isSome && buf == [] && (Spec.hasCredentials u || u.port.isSome)) = true then .ret u
        else
          match K.hostParse buf (!Spec.isSpecial u.scheme) with
          | none => .failure u
          | some h =>
            if K.override.isSome = true then .ret { u with host := some h }
            else .go ⟨.pathStart, i - 1, [], a, b, p, { u with host := some h }⟩)
      else .go ⟨st, i, buf ++ c.toList, a, if c = some c!"[" then true else if c = some c!"]" then false else b, p, u⟩ := by
  rcases hst with rfl | rfl <;> rfl

theorem hasCredentials_eq (u : Rec) : Spec.hasCredentials u = u.includesCredentials := by
  unfold Spec.hasCredentials Rec.includesCredentials
  cases u.username <;> cases u.password <;> rfl

theorem std_hostname : ov.map PState.std = some .hostname ↔ ov = some .hostname := by
  cases ov with
  | none => simp
  | some st => cases st <;> simp [PState.std]

/-- where the standard and the library treat the host of a setter alike: not if an empty host is set beside port 0 -/
def HostPortOK (buf : Str) (u : Rec) : Prop :=
  u.port = some 0 → buf = [] → u.isSpecial = false → u.includesCredentials = true

theorem HostPortOK.of {u : Rec} (h : u.port ≠ some 0) (buf : Str) : HostPortOK buf u := fun h' => absurd h' h

theorem m_hostEnd (hS : SimOK env e base s) {r buf : Str} {i : Nat} (hd : s.drop i = r) (hi : i ≤ s.length)
    (a b p : Bool) {u : Rec} {pp : List Str} (hp : u.path = .list pp) (hpt : ov.isSome = true → HostPortOK buf u)
    (hnf : (ov.isSome && u.scheme == u!"file") = false)
    (hr : ∀ c, r.head? = some c → isAuthorityEnd u.isSpecial c = true) {st : Spec.State} (hst : st = .host ∨ st = .hostname) :
    Halts (machine env e base ov) s ⟨st, i, buf, a, b, p, u⟩ (after env e base ov (sHostEnd env ov.isSome buf r u)) := by
  have h := run_host (K := machine env e base ov) r.head? r.tail buf i a b p u hst
  rw [ov_isSome, hnf, if_neg (by simp)] at h
  have hncol : (r.head? == some 58 && !b) = false := by
    cases r with
    | nil => rfl
    | cons c cs =>
      have := hr c rfl
      have hne : c ≠ 58 := by
        rintro rfl
        unfold isAuthorityEnd at this
        simp at this
      simp [hne]
  have hend : Spec.endsAuthority u r.head? = true := by
    cases r with
    | nil => exact endsAuthority_none u
    | cons c cs => rw [List.head?_cons, endsAuthority_some]; exact hr c rfl
  have hK : ∀ x, (machine env e base ov).hostParse buf x = hostOf env buf x := fun x => rfl
  have hemp : (buf == []) = buf.isEmpty := by cases buf <;> rfl
  rw [hncol, if_neg (by simp), if_pos hend, isSpecial_rec, hasCredentials_eq, hK, hemp] at h
  unfold sHostEnd
  by_cases h1 : (u.isSpecial && buf.isEmpty) = true
  · rw [if_pos h1] at h
    rw [if_pos h1, after_fail]
    exact m_fail hd h
  · rw [if_neg h1] at h
    rw [if_neg h1]
    have hpp : (ov.isSome && buf.isEmpty && (u.includesCredentials || u.port.isSome)) =
        (ov.isSome && buf.isEmpty && (u.includesCredentials || u.portTruthy)) := by
      cases hv : ov.isSome with
      | false => rfl
      | true =>
        cases hbe : buf.isEmpty with
        | false => rfl
        | true =>
          congr 1
          unfold Rec.portTruthy
          cases hport : u.port with
          | none => rfl
          | some n =>
            by_cases hn : n = 0
            · subst hn
              have hsp : u.isSpecial = false := by
                rw [hbe, Bool.and_true] at h1
                simpa using h1
              rw [hpt hv hport (by simpa using hbe) hsp]
              rfl
            · simp [hn]
    rw [hpp] at h
    by_cases h2 : (ov.isSome && buf.isEmpty && (u.includesCredentials || u.portTruthy)) = true
    · rw [if_pos h2] at h
      rw [if_pos h2, after_to, E_eof]
      exact m_ret hd h
    · rw [if_neg h2] at h
      rw [if_neg h2]
      unfold hostOf at h
      cases hh : (hostParse env buf (!u.isSpecial)).res with
      | error err =>
        rw [hh] at h
        exact m_fail hd h
      | ok hst =>
        rw [hh] at h
        dsimp only at h ⊢
        rw [after_to]
        by_cases h3 : ov.isSome = true
        · rw [if_pos h3] at h
          rw [if_pos h3, E_eof]
          exact m_ret hd h
        · rw [if_neg h3] at h
          rw [if_neg h3]
          exact m_stay hd hi h (m_pathStart hS hd hi _ _ _ hp)

theorem m_host_loop (hS : SimOK env e base s) (rest : Str) {st : Spec.State} (hst : st = .host ∨ st = .hostname) :
    ∀ (i : Nat) (hd : s.drop i = rest) (hi : i ≤ s.length)
    (buf : Str) (a b p : Bool) (u : Rec) (pp : List Str), u.path = .list pp →
    (ov.isSome = true → (hostSpan u.isSpecial b rest).2.head? ≠ some c!":" → HostPortOK (buf ++ (hostSpan u.isSpecial b rest).1) u) →
    (ov.isSome && u.scheme == u!"file") = false →
    Halts (machine env e base ov) s ⟨st, i, buf, a, b, p, u⟩
      (after env e base ov (sHostGo env ov (buf ++ (hostSpan u.isSpecial b rest).1) (hostSpan u.isSpecial b rest).2 u)) := by
  induction rest with
  | nil =>
    intro i hd hi buf a b p u pp hp hpt hnf
    show Halts _ _ _ (after env e base ov (sHostGo env ov (buf ++ []) [] u))
    rw [List.append_nil]
    exact m_hostEnd hS hd hi a b p hp (fun hv => by simpa [hostSpan] using hpt hv (by simp [hostSpan])) hnf
      (by intro c hc; cases hc) hst
  | cons c cs ih =>
    intro i hd hi buf a b p u pp hp hpt hnf
    unfold hostSpan at hpt ⊢
    by_cases h1 : (decide (c = 58) && !b) = true
    · rw [if_pos (by simp [h1])]
      dsimp only
      rw [List.append_nil]
      have h1' := h1
      simp only [Bool.and_eq_true, decide_eq_true_eq, Bool.not_eq_true'] at h1'
      have h := run_host (K := machine env e base ov) (some c) cs buf i a b p u hst
      rw [ov_isSome, hnf, if_neg (by simp), if_pos (by simp [h1'.1, h1'.2]), isSpecial_rec] at h
      unfold sHostGo
      dsimp only
      rw [if_pos h1'.1]
      have hK : ∀ x, (machine env e base ov).hostParse buf x = hostOf env buf x := fun x => rfl
      rw [hK] at h
      by_cases h2 : buf = []
      · rw [if_pos h2] at h
        rw [if_pos (by simpa using h2), after_fail]
        exact m_fail hd h
      · rw [if_neg h2] at h
        rw [if_neg (by simpa using h2)]
        by_cases h3 : ov = some .hostname
        · rw [if_pos (show (machine env e base ov).override = some .hostname from std_hostname.2 h3)] at h
          rw [if_pos h3, after_to, E_eof]
          exact m_ret hd h
        · rw [if_neg (show ¬ (machine env e base ov).override = some .hostname from fun x => h3 (std_hostname.1 x))] at h
          rw [if_neg h3]
          unfold hostOf at h
          cases hh : (hostParse env buf (!u.isSpecial)).res with
          | error err =>
            rw [hh] at h
            exact m_fail hd h
          | ok hst =>
            rw [hh] at h
            dsimp only at h ⊢
            rw [after_to]
            exact m_adv hd h (m_port hS (drop_next hd) (drop_lt hd) _ _ _ hp)
    · by_cases h2 : isAuthorityEnd u.isSpecial c = true
      · rw [if_pos (by simp [h2])] at hpt ⊢
        dsimp only at hpt ⊢
        rw [List.append_nil] at hpt ⊢
        have hc : c ≠ 58 := by
          rintro rfl
          unfold isAuthorityEnd at h2
          simp at h2
        unfold sHostGo
        dsimp only
        rw [if_neg hc]
        exact m_hostEnd hS hd hi a b p hp (fun hv => hpt hv (by simpa using hc)) hnf (by intro x hx; cases hx; exact h2) hst
      · rw [if_neg (by simp only [Bool.or_eq_true, not_or]; exact ⟨h1, h2⟩)] at hpt ⊢
        dsimp only at hpt ⊢
        have h := run_host (K := machine env e base ov) (some c) cs buf i a b p u hst
        rw [ov_isSome, hnf, if_neg (by simp), if_neg (by
          intro hx
          apply h1
          simpa using hx), endsAuthority_some, if_neg h2] at h
        refine m_adv hd h ?_
        have := ih (i + 1) (drop_next hd) (drop_lt hd) (buf ++ [c]) a
          (if some c = some c!"[" then true else if some c = some c!"]" then false else b) p u pp hp
          (by simpa using hpt) hnf
        simp only [Option.some.injEq] at this
        simp only [Option.some.injEq, Option.toList_some]
        simpa using this

theorem m_host (hS : SimOK env e base s) {rest : Str} {i : Nat} (hd : s.drop i = rest) (hi : i ≤ s.length)
    (a p : Bool) {u : Rec} {pp : List Str} (hp : u.path = .list pp)
    (hpt : ov.isSome = true → u.scheme ≠ u!"file" → (hostSpan u.isSpecial false rest).2.head? ≠ some c!":" →
      HostPortOK (hostSpan u.isSpecial false rest).1 u)
    {st : PState} (hst : st = .host ∨ st = .hostname) :
    Halts (machine env e base ov) s ⟨st.std, i, [], a, false, p, u⟩ (E env e base ov st rest u) := by
  have hst' : st.std = .host ∨ st.std = .hostname := by rcases hst with rfl | rfl <;> simp [PState.std]
  have e1 : E env e base ov st rest u = after env e base ov (sHost env ov rest u) := by
    rcases hst with rfl | rfl <;> exact E_step (by decide) _ _
  rw [e1]
  unfold sHost
  by_cases h1 : (ov.isSome && u.scheme == u!"file") = true
  · have h := run_host (K := machine env e base ov) rest.head? rest.tail [] i a false p u hst'
    rw [ov_isSome, if_pos h1] at h
    rw [if_pos h1, after_to]
    exact m_stay hd hi h (m_fileHost hS hd hi _ _ _ hp)
  · rw [if_neg h1]
    have := m_host_loop hS rest hst' i hd hi [] a false p u pp hp (fun hv => hpt hv (by simpa [hv] using h1)) (by simpa using h1)
    simpa using this

/-! ### authority -/

theorem run_authority (c : Option Nat) (r buf : Str) (i : Int) (a b p : Bool) (u : Rec) :
    runState K c r ⟨.authority, i, buf, a, b, p, u⟩ =
      if c = some c!"@" then
        .go ⟨.authority, i, [], true, b, (Spec.credentials (if a = true then u!"%40" ++ buf else buf) p u).1,
          (Spec.credentials (if a = true then u!"%40" ++ buf else buf) p u).2⟩
      else if Spec.endsAuthority u c = true then
        (if (a && buf == []) = true then .failure u
        else .go ⟨.host, i - (buf.length + 1), [], a, b, p, u⟩)
      else .go ⟨.authority, i, buf ++ c.toList, a, b, p, u⟩ := rfl

theorem authorityAt_keeps (buf : Str) (a p : Bool) (u : Rec) :
    (authorityAt buf a p u).1.scheme = u.scheme ∧ (authorityAt buf a p u).1.path = u.path ∧
      (authorityAt buf a p u).1.port = u.port := ⟨rfl, rfl, rfl⟩

theorem m_authority_end (hS : SimOK env e base s) {r buf : Str} {i : Nat} (hd : s.drop i = r) (hi : i ≤ s.length)
    (hl : buf.length ≤ i) (a p : Bool) {u : Rec} {pp : List Str}
    (hp : u.path = .list pp) (hpt : ov.isSome = true → u.port ≠ some 0) (log : Log)
    (h : runState (machine env e base ov) r.head? r.tail ⟨.authority, i, buf, a, false, p, u⟩ =
      if (a && buf == []) = true then .failure u
        else .go ⟨.host, i - (buf.length + 1), [], a, false, p, u⟩) :
    Halts (machine env e base ov) s ⟨.authority, i, buf, a, false, p, u⟩
      (after env e base ov ((authorityEnd (i + 1) buf a u log).on s)) := by
  have hemp : (buf == []) = buf.isEmpty := by cases buf <;> rfl
  rw [hemp] at h
  unfold authorityEnd
  by_cases h1 : (a && buf.isEmpty) = true
  · rw [if_pos h1] at h
    rw [if_pos h1]
    exact m_fail hd h
  · rw [if_neg h1] at h
    rw [if_neg h1, Out.on_to, after_to]
    have hidx : i + 1 - (buf.length + 1) = i - buf.length := by omega
    rw [hidx]
    refine .next (k' := ⟨.host, i - (buf.length + 1), [], a, false, p, u⟩) ?_ ?_ ?_
    · dsimp only
      rw [codePoint_drop, remaining_drop, hd]
      exact h
    · show (i : Int) - (buf.length + 1) ≠ s.length
      omega
    · have : ((i : Int) - (buf.length + 1) + 1) = ((i - buf.length : Nat) : Int) := by omega
      dsimp only
      rw [this]
      exact m_host hS rfl (by omega) a p hp (fun hv _ _ => .of (hpt hv) _) (.inl rfl)

theorem m_authority_loop (hS : SimOK env e base s) (rest : Str) {sp : Bool} : ∀ (i : Nat) (hd : s.drop i = rest) (hi : i ≤ s.length)
    (buf : Str) (hb : IsScalarStr buf) (hl : buf.length ≤ i) (a p : Bool) (u : Rec) (pp : List Str) (hsp : u.isSpecial = sp),
    u.path = .list pp → (ov.isSome = true → u.port ≠ some 0) → ∀ log : Log,
    Halts (machine env e base ov) s ⟨.authority, i, buf, a, false, p, u⟩
      (after env e base ov ((authorityLoop sp rest i buf a p u log).on s)) := by
  induction rest with
  | nil =>
    intro i hd hi buf hb hl a p u pp hsp hp hpt log
    refine m_authority_end hS hd hi hl a p hp hpt log ?_
    rw [run_authority, if_neg (by simp), if_pos (show Spec.endsAuthority u ([] : Str).head? = true from endsAuthority_none u)]
  | cons c cs ih =>
    intro i hd hi buf hb hl a p u pp hsp hp hpt log
    have h := run_authority (K := machine env e base ov) (some c) cs buf i a false p u
    unfold authorityLoop
    by_cases h1 : c = 64
    · rw [if_pos (by rw [h1]), authorityAt_spec hb] at h
      rw [if_pos h1]
      dsimp only
      refine m_adv hd h ?_
      exact ih (i + 1) (drop_next hd) (drop_lt hd) [] .nil (by simp) true (authorityAt buf a p u).2
        (authorityAt buf a p u).1 pp hsp hp hpt _
    · rw [if_neg (by simpa using h1), endsAuthority_some, hsp] at h
      rw [if_neg h1]
      by_cases h2 : isAuthorityEnd sp c = true
      · rw [if_pos h2] at h
        rw [if_pos h2]
        exact m_authority_end hS hd hi hl a p hp hpt log h
      · rw [if_neg h2] at h
        rw [if_neg h2]
        refine m_adv hd h ?_
        have hc1 : IsScalarStr [c] := (scalar_rest hS hd).mono fun x hx => by
          rw [List.mem_singleton] at hx; rw [hx]; simp
        exact ih (i + 1) (drop_next hd) (drop_lt hd) (buf ++ [c]) (hb.append hc1) (by simp; omega) a p u pp hsp hp hpt log

theorem m_authority (hS : SimOK env e base s) {rest : Str} {i : Nat} (hd : s.drop i = rest) (hi : i ≤ s.length)
    {u : Rec} {pp : List Str} (hp : u.path = .list pp) (hpt : ov.isSome = true → u.port ≠ some 0) :
    Halts (machine env e base ov) s ⟨.authority, i, [], false, false, false, u⟩ (E env e base ov .authority rest u) := by
  rw [E_step (by decide), ← hd, ← step_on]
  show Halts _ _ _ (after env e base ov ((authorityLoop u.isSpecial (s.drop i) i [] false false u []).on s))
  exact m_authority_loop hS _ i rfl hi [] .nil (by simp) false false u pp rfl hp hpt []

end

end Urlstd
