/-
The standard's state machine follows the parser: schemes, relative references, and the whole parser.
-/
import Verif.Lemmas.Machine3

set_option linter.unusedSimpArgs false
set_option linter.unusedVariables false

namespace Urlstd

open Spec (IsStr IsScalarStr encodeCP encodeAfter encoder Letter Cfg Ctx Next Outcome Halts runState codePoint)

section
variable {env : Env} {e : Encoding} {base : Option Rec} {ov : Option PState} {s : Str} {K : Ctx}

/-! ### slashes before an authority -/

theorem run_ignoreSlashes (c : Option Nat) (r buf : Str) (i : Int) (a b p : Bool) (u : Rec) :
    runState K c r ⟨.specialAuthorityIgnoreSlashes, i, buf, a, b, p, u⟩ =
      if c = some c!"/" ∨ c = some c!"\\" then .go ⟨.specialAuthorityIgnoreSlashes, i, buf, a, b, p, u⟩
      else .go ⟨.authority, i - 1, buf, a, b, p, u⟩ := rfl

theorem m_ignoreSlashes (hS : SimOK env e base s) (rest : Str) : ∀ (i : Nat) (hd : s.drop i = rest) (hi : i ≤ s.length)
    (u : Rec) (pp : List Str), u.path = .list pp → (ov.isSome = true → u.port ≠ some 0) →
    Halts (machine env e base ov) s ⟨.specialAuthorityIgnoreSlashes, i, [], false, false, false, u⟩
      (E env e base ov .specialAuthorityIgnoreSlashes rest u) := by
  induction rest with
  | nil =>
    intro i hd hi u pp hp hpt
    have h := run_ignoreSlashes (K := machine env e base ov) none [] [] i false false false u
    rw [if_neg (by simp)] at h
    rw [E_step (by decide)]
    exact m_stay hd hi h (m_authority hS hd hi hp hpt)
  | cons c cs ih =>
    intro i hd hi u pp hp hpt
    have h := run_ignoreSlashes (K := machine env e base ov) (some c) cs [] i false false false u
    rw [E_step (by decide)]
    show Halts _ _ _ (after env e base ov (sSpecialAuthorityIgnoreSlashes (c :: cs) u))
    unfold sSpecialAuthorityIgnoreSlashes
    by_cases hc : isSlash c = true
    · rw [if_pos (by unfold isSlash at hc; simpa using hc)] at h
      rw [List.dropWhile_cons_of_pos hc]
      have := ih (i + 1) (drop_next hd) (drop_lt hd) u pp hp hpt
      rw [E_step (by decide)] at this
      exact m_adv hd h this
    · rw [if_neg (by unfold isSlash at hc; simpa using hc)] at h
      rw [List.dropWhile_cons_of_neg hc]
      exact m_stay hd hi h (m_authority hS hd hi hp hpt)

theorem run_authoritySlashes (c : Option Nat) (r buf : Str) (i : Int) (a b p : Bool) (u : Rec) :
    runState K c r ⟨.specialAuthoritySlashes, i, buf, a, b, p, u⟩ =
      if c = some c!"/" ∧ r.head? = some c!"/" then .go ⟨.specialAuthorityIgnoreSlashes, i + 1, buf, a, b, p, u⟩
      else .go ⟨.specialAuthorityIgnoreSlashes, i - 1, buf, a, b, p, u⟩ := rfl

theorem twoSlashes (r : Str) : (r.head? = some 47 ∧ r.tail.head? = some 47) ↔ r.take 2 = u!"//" := by
  rcases r with _ | ⟨a, _ | ⟨b, r⟩⟩ <;> simp

theorem twoSlashes_shape {r : Str} (h : r.take 2 = u!"//") : r = 47 :: 47 :: r.drop 2 := by
  rcases r with _ | ⟨a, _ | ⟨b, r⟩⟩ <;> simp_all

theorem m_authoritySlashes (hS : SimOK env e base s) {rest : Str} {i : Nat} (hd : s.drop i = rest) (hi : i ≤ s.length)
    {u : Rec} {pp : List Str} (hp : u.path = .list pp) (hpt : ov.isSome = true → u.port ≠ some 0) :
    Halts (machine env e base ov) s ⟨.specialAuthoritySlashes, i, [], false, false, false, u⟩
      (E env e base ov .specialAuthoritySlashes rest u) := by
  rw [E_step (by decide)]
  show Halts _ _ _ (after env e base ov (sSpecialAuthoritySlashes rest u))
  have h := run_authoritySlashes (K := machine env e base ov) rest.head? rest.tail [] i false false false u
  unfold sSpecialAuthoritySlashes
  by_cases h1 : rest.take 2 = u!"//"
  · rw [if_pos ((twoSlashes rest).2 h1)] at h
    rw [if_pos h1, after_to]
    have hr := twoSlashes_shape h1
    rw [hr] at hd h
    exact m_skip hd h (m_ignoreSlashes hS _ _ (drop_next (drop_next hd)) (drop_lt (drop_next hd)) u pp hp hpt)
  · rw [if_neg (fun x => h1 ((twoSlashes rest).1 x))] at h
    rw [if_neg h1, after_to]
    exact m_stay hd hi h (m_ignoreSlashes hS _ _ hd hi u pp hp hpt)

/-! ### relative references -/

theorem run_relativeSlash (c : Option Nat) (r buf : Str) (i : Int) (a b p : Bool) (u : Rec) :
    runState K c r ⟨.relativeSlash, i, buf, a, b, p, u⟩ =
      if (Spec.isSpecial u.scheme && (c == some c!"/" || c == some c!"\\")) = true then
        .go ⟨.specialAuthorityIgnoreSlashes, i, buf, a, b, p, u⟩
      else if c = some c!"/" then .go ⟨.authority, i, buf, a, b, p, u⟩
      else
        match K.base with
        | none => .failure u
        | some bs => .go ⟨.path, i - 1, buf, a, b, p,
            { u with username := bs.username, password := bs.password, host := bs.host, port := bs.port }⟩ := rfl

theorem m_relativeSlash (hS : SimOK env e base s) {rest : Str} {i : Nat} (hd : s.drop i = rest) (hi : i ≤ s.length)
    {u : Rec} {pp : List Str} (hp : u.path = .list pp) (hpt : ov.isSome = true → u.port ≠ some 0) :
    Halts (machine env e base ov) s ⟨.relativeSlash, i, [], false, false, false, u⟩ (E env e base ov .relativeSlash rest u) := by
  rw [E_step (by decide)]
  show Halts _ _ _ (after env e base ov (sRelativeSlash base rest u))
  have hb : (machine env e base ov).base = base := rfl
  have h := run_relativeSlash (K := machine env e base ov) rest.head? rest.tail [] i false false false u
  rw [hb, isSpecial_rec] at h
  unfold sRelativeSlash
  dsimp only
  by_cases h1 : (u.isSpecial && (decide (rest.head? = some 92) || decide (rest.head? = some 47))) = true
  · have h1' : (u.isSpecial && (rest.head? == some 47 || rest.head? == some 92)) = true := by
      simp only [Bool.and_eq_true, Bool.or_eq_true, decide_eq_true_eq, beq_iff_eq] at h1 ⊢
      exact ⟨h1.1, h1.2.symm⟩
    rw [if_pos h1'] at h
    rw [if_pos h1, after_to]
    cases rest with
    | nil => simp at h1
    | cons c cs => exact m_adv hd h (m_ignoreSlashes hS _ _ (drop_next hd) (drop_lt hd) u pp hp hpt)
  · have h1' : ¬ (u.isSpecial && (rest.head? == some 47 || rest.head? == some 92)) = true := by
      intro hx
      apply h1
      simp only [Bool.and_eq_true, Bool.or_eq_true, decide_eq_true_eq, beq_iff_eq] at hx ⊢
      exact ⟨hx.1, hx.2.symm⟩
    rw [if_neg h1'] at h
    rw [if_neg h1]
    by_cases h2 : rest.head? = some 47
    · rw [if_pos h2] at h
      rw [if_pos h2, after_to]
      cases rest with
      | nil => simp at h2
      | cons c cs => exact m_adv hd h (m_authority hS (drop_next hd) (drop_lt hd) hp hpt)
    · rw [if_neg h2] at h
      rw [if_neg h2]
      cases hbase : base with
      | none =>
        rw [hbase] at h
        dsimp only at h ⊢
        rw [← hbase] at h ⊢
        rw [after_fail]
        exact m_fail hd h
      | some bs =>
        rw [hbase] at h
        dsimp only at h ⊢
        rw [← hbase] at h ⊢
        rw [after_to]
        exact m_stay hd hi h (m_path hS hd hi _ _ _ hp)

theorem run_relative (c : Option Nat) (r buf : Str) (i : Int) (a b p : Bool) (u : Rec) :
    runState K c r ⟨.relative, i, buf, a, b, p, u⟩ =
      match K.base with
      | none => .failure u
      | some bs =>
        match c with
        | some x =>
          if x = c!"/" then .go ⟨.relativeSlash, i, buf, a, b, p, { u with scheme := bs.scheme }⟩
          else if (Spec.isSpecial bs.scheme && x == c!"\\") = true then .go ⟨.relativeSlash, i, buf, a, b, p, { u with scheme := bs.scheme }⟩
          else if x = c!"?" then .go ⟨.query, i, buf, a, b, p, { copyBase bs u with query := some [] }⟩
          else if x = c!"#" then .go ⟨.fragment, i, buf, a, b, p, { copyBase bs u with fragment := some [] }⟩
          else .go ⟨.path, i - 1, buf, a, b, p, Spec.shorten { copyBase bs u with query := none }⟩
        | none => .go ⟨.relative, i, buf, a, b, p, copyBase bs u⟩ := rfl

theorem m_relative (hS : SimOK env e base s) {rest : Str} {i : Nat} (hd : s.drop i = rest) (hi : i ≤ s.length)
    {u : Rec} {pp : List Str} (hp : u.path = .list pp) (hpt : ov.isSome = true → u.port ≠ some 0)
    {bs : Rec} (hbase : base = some bs) {q : List Str} (hq : bs.path = .list q) (hnf : bs.scheme ≠ u!"file") :
    Halts (machine env e base ov) s ⟨.relative, i, [], false, false, false, u⟩ (E env e base ov .relative rest u) := by
  rw [E_step (by decide)]
  show Halts _ _ _ (after env e base ov (sRelative base rest u))
  have hb : (machine env e base ov).base = some bs := hbase
  have h := run_relative (K := machine env e base ov) rest.head? rest.tail [] i false false false u
  rw [hb] at h
  dsimp only at h
  have e1 : sRelative base rest u = sRelative (some bs) rest u := by rw [hbase]
  rw [e1]
  unfold sRelative
  dsimp only
  rw [if_neg hnf]
  cases rest with
  | nil =>
    dsimp only
    rw [after_to, E_eof]
    exact m_end hd hi h
  | cons c cs =>
    dsimp only [List.head?_cons] at h ⊢
    have hsp : Spec.isSpecial bs.scheme = bs.isSpecial := isSpecial_rec bs
    by_cases h1 : c = 47
    · rw [if_pos h1] at h
      rw [if_pos (by simp [h1]), after_to]
      exact m_adv hd h (m_relativeSlash hS (drop_next hd) (drop_lt hd) (u := { u with scheme := bs.scheme }) hp hpt)
    · rw [if_neg h1, hsp] at h
      by_cases h2 : (bs.isSpecial && c == 92) = true
      · rw [if_pos h2] at h
        rw [if_pos (by simp at h2; simp [h2]), after_to]
        exact m_adv hd h (m_relativeSlash hS (drop_next hd) (drop_lt hd) (u := { u with scheme := bs.scheme }) hp hpt)
      · rw [if_neg h2] at h
        rw [if_neg (by
          intro hx
          simp only [Bool.or_eq_true, decide_eq_true_eq, Bool.and_eq_true] at hx
          rcases hx with hx | hx
          · exact h1 hx
          · exact h2 (by simp [hx.1, hx.2]))]
        by_cases h3 : c = 63
        · rw [if_pos h3] at h
          rw [if_pos h3, after_to]
          exact m_adv hd h (m_query hS (drop_next hd) (drop_lt hd) _ _ _ rfl)
        · rw [if_neg h3] at h
          rw [if_neg h3]
          by_cases h4 : c = 35
          · rw [if_pos h4] at h
            rw [if_pos h4, after_to]
            exact m_adv hd h (m_fragment hS (drop_next hd) (drop_lt hd) _ _ _ _ rfl)
          · rw [if_neg h4, shorten_eq (u := { copyBase bs u with query := none }) (p := q) hq] at h
            rw [if_neg h4, shortenRec_list (u := { copyBase bs u with query := none }) hq]
            dsimp only
            rw [after_to]
            exact m_stay hd hi h (m_path hS hd hi _ _ _ rfl)

theorem run_relativeOrAuthority (c : Option Nat) (r buf : Str) (i : Int) (a b p : Bool) (u : Rec) :
    runState K c r ⟨.specialRelativeOrAuthority, i, buf, a, b, p, u⟩ =
      if c = some c!"/" ∧ r.head? = some c!"/" then .go ⟨.specialAuthorityIgnoreSlashes, i + 1, buf, a, b, p, u⟩
      else .go ⟨.relative, i - 1, buf, a, b, p, u⟩ := rfl

theorem m_relativeOrAuthority (hS : SimOK env e base s) {rest : Str} {i : Nat} (hd : s.drop i = rest) (hi : i ≤ s.length)
    {u : Rec} {pp : List Str} (hp : u.path = .list pp) (hpt : ov.isSome = true → u.port ≠ some 0)
    {bs : Rec} (hbase : base = some bs) {q : List Str} (hq : bs.path = .list q) (hnf : bs.scheme ≠ u!"file") :
    Halts (machine env e base ov) s ⟨.specialRelativeOrAuthority, i, [], false, false, false, u⟩
      (E env e base ov .specialRelativeOrAuthority rest u) := by
  rw [E_step (by decide)]
  show Halts _ _ _ (after env e base ov (sSpecialRelativeOrAuthority rest u))
  have h := run_relativeOrAuthority (K := machine env e base ov) rest.head? rest.tail [] i false false false u
  unfold sSpecialRelativeOrAuthority
  by_cases h1 : rest.take 2 = u!"//"
  · rw [if_pos ((twoSlashes rest).2 h1)] at h
    rw [if_pos h1, after_to]
    have hr := twoSlashes_shape h1
    rw [hr] at hd h
    exact m_skip hd h (m_ignoreSlashes hS _ _ (drop_next (drop_next hd)) (drop_lt (drop_next hd)) u pp hp hpt)
  · rw [if_neg (fun x => h1 ((twoSlashes rest).1 x))] at h
    rw [if_neg h1, after_to]
    exact m_stay hd hi h (m_relative hS hd hi hp hpt hbase hq hnf)

theorem run_pathOrAuthority (c : Option Nat) (r buf : Str) (i : Int) (a b p : Bool) (u : Rec) :
    runState K c r ⟨.pathOrAuthority, i, buf, a, b, p, u⟩ =
      if c = some c!"/" then .go ⟨.authority, i, buf, a, b, p, u⟩ else .go ⟨.path, i - 1, buf, a, b, p, u⟩ := rfl

theorem m_pathOrAuthority (hS : SimOK env e base s) {rest : Str} {i : Nat} (hd : s.drop i = rest) (hi : i ≤ s.length)
    {u : Rec} {pp : List Str} (hp : u.path = .list pp) (hpt : ov.isSome = true → u.port ≠ some 0) :
    Halts (machine env e base ov) s ⟨.pathOrAuthority, i, [], false, false, false, u⟩ (E env e base ov .pathOrAuthority rest u) := by
  rw [E_step (by decide)]
  show Halts _ _ _ (after env e base ov (sPathOrAuthority rest u))
  have h := run_pathOrAuthority (K := machine env e base ov) rest.head? rest.tail [] i false false false u
  unfold sPathOrAuthority
  by_cases h1 : rest.head? = some 47
  · rw [if_pos h1] at h
    rw [if_pos h1, after_to]
    cases rest with
    | nil => simp at h1
    | cons c cs => exact m_adv hd h (m_authority hS (drop_next hd) (drop_lt hd) hp hpt)
  · rw [if_neg h1] at h
    rw [if_neg h1, after_to]
    exact m_stay hd hi h (m_path hS hd hi _ _ _ hp)

/-! ### no scheme -/

theorem run_noScheme (c : Option Nat) (r buf : Str) (i : Int) (a b p : Bool) (u : Rec) :
    runState K c r ⟨.noScheme, i, buf, a, b, p, u⟩ =
      match K.base with
      | none => .failure u
      | some bs =>
        if (Spec.isOpaque bs && c != some c!"#") = true then .failure u
        else if Spec.isOpaque bs = true then .go ⟨.fragment, i, buf, a, b, p,
          { u with scheme := bs.scheme, path := bs.path, query := bs.query, fragment := some [] }⟩
        else if bs.scheme ≠ u!"file" then .go ⟨.relative, i - 1, buf, a, b, p, u⟩
        else .go ⟨.file, i - 1, buf, a, b, p, u⟩ := rfl

theorem m_noScheme (hS : SimOK env e base s) {rest : Str} {i : Nat} (hd : s.drop i = rest) (hi : i ≤ s.length)
    {u : Rec} {pp : List Str} (hp : u.path = .list pp) (hpt : ov.isSome = true → u.port ≠ some 0)
    (hfile : rest = [] → ∀ b, base = some b → b.scheme ≠ u!"file") :
    Halts (machine env e base ov) s ⟨.noScheme, i, [], false, false, false, u⟩ (E env e base ov .noScheme rest u) := by
  rw [E_step (by decide)]
  show Halts _ _ _ (after env e base ov (sNoScheme base rest u))
  have hb : (machine env e base ov).base = base := rfl
  have h := run_noScheme (K := machine env e base ov) rest.head? rest.tail [] i false false false u
  rw [hb] at h
  unfold sNoScheme
  cases hbase : base with
  | none =>
    rw [hbase] at h
    dsimp only at h ⊢
    rw [← hbase] at h ⊢
    rw [after_fail]
    exact m_fail hd h
  | some bs =>
    rw [hbase] at h
    dsimp only at h ⊢
    rw [← hbase] at h ⊢
    rw [isOpaque_eq, show (rest.head? != some 35) = !(rest.head? == some 35) from rfl] at h
    by_cases h1 : (bs.hasOpaquePath && !(rest.head? == some 35)) = true
    · rw [if_pos h1] at h
      rw [if_pos h1, after_fail]
      exact m_fail hd h
    · rw [if_neg h1] at h
      rw [if_neg h1]
      by_cases h2 : bs.hasOpaquePath = true
      · rw [if_pos h2] at h
        rw [if_pos h2, after_to]
        cases rest with
        | nil => simp [h2] at h1
        | cons c cs => exact m_adv hd h (m_fragment hS (drop_next hd) (drop_lt hd) _ _ _ _ rfl)
      · rw [if_neg h2] at h
        rw [if_neg h2]
        have hq : ∃ q, bs.path = .list q := by
          unfold Rec.hasOpaquePath at h2
          cases hq : bs.path with
          | list q => exact ⟨q, rfl⟩
          | «opaque» t => rw [hq] at h2; simp at h2
        obtain ⟨q, hq⟩ := hq
        by_cases h3 : bs.scheme ≠ u!"file"
        · rw [if_pos h3] at h
          rw [if_pos h3, after_to]
          exact m_stay hd hi h (m_relative hS hd hi hp hpt hbase hq h3)
        · rw [if_neg h3] at h
          rw [if_neg h3, after_to]
          exact m_stay hd hi h (m_file hS hd hi _ _ _ hp hfile)

/-! ### scheme -/

/-- whether the base has the given scheme -/
def sameScheme (base : Option Rec) (buffer : Str) : Bool :=
  match base with | some b => b.scheme == buffer | none => false

/-- what `_parse_scheme` does with a scheme and the rest -/
def schemeDone (base : Option Rec) (ov : Option PState) (buffer r : Str) (url : Rec) : SOut :=
  if ov.isSome then .to .eof r (overrideScheme url buffer)
  else if buffer = u!"file" then .to .file r { url with scheme := buffer }
  else if isSpecialScheme buffer then
    if sameScheme base buffer then
      .to .specialRelativeOrAuthority r { url with scheme := buffer }
    else .to .specialAuthoritySlashes r { url with scheme := buffer }
  else if r.head? = some c!"/" then .to .pathOrAuthority r.tail { url with scheme := buffer }
  else .to .opaquePath r { url with scheme := buffer, path := .opaque [] }

def schemeBad (ov : Option PState) (s : Str) (url : Rec) : SOut :=
  if ov.isNone then .to .noScheme s url else .fail .urlParse url

theorem sScheme_eq (rest : Str) (url : Rec) : sScheme base ov rest url =
    match takeScheme rest with
    | none => schemeBad ov rest url
    | some (buffer, r) => schemeDone base ov buffer r url := by
  unfold sScheme schemeBad schemeDone
  rfl

theorem run_scheme (c : Option Nat) (r buf : Str) (i : Int) (a b p : Bool) (u : Rec) :
    runState K c r ⟨.scheme, i, buf, a, b, p, u⟩ =
      match c with
      | some x =>
        if Letter x ∨ Spec.Digit x ∨ x = c!"+" ∨ x = c!"-" ∨ x = c!"." then .go ⟨.scheme, i, buf ++ Spec.toLower [x], a, b, p, u⟩
        else if x = c!":" then
          (if K.override.isSome = true then
            (if (Spec.isSpecial u.scheme && !Spec.isSpecial buf) = true then .ret u
            else if (!Spec.isSpecial u.scheme && Spec.isSpecial buf) = true then .ret u
            else if ((Spec.hasCredentials u || u.port.isSome) && buf == u!"file") = true then .ret u
            else if (u.scheme == u!"file" && u.host == some (.str [])) = true then .ret u
            else .ret (match u.port with
              | some p => if Spec.isDefault buf p then { u with scheme := buf, port := none } else { u with scheme := buf }
              | none => { u with scheme := buf }))
          else if buf = u!"file" then .go ⟨.file, i, [], a, b, p, { u with scheme := buf }⟩
          else if Spec.isSpecial buf = true then
            match K.base with
            | some bs =>
              if bs.scheme = buf then .go ⟨.specialRelativeOrAuthority, i, [], a, b, p, { u with scheme := buf }⟩
              else .go ⟨.specialAuthoritySlashes, i, [], a, b, p, { u with scheme := buf }⟩
            | none => .go ⟨.specialAuthoritySlashes, i, [], a, b, p, { u with scheme := buf }⟩
          else if r.head? = some c!"/" then .go ⟨.pathOrAuthority, i + 1, [], a, b, p, { u with scheme := buf }⟩
          else .go ⟨.opaquePath, i, [], a, b, p, { u with scheme := buf, path := .opaque [] }⟩)
        else if (!K.override.isSome) = true then .go ⟨.noScheme, -1, [], a, b, p, u⟩ else .failure u
      | none => if (!K.override.isSome) = true then .go ⟨.noScheme, -1, [], a, b, p, u⟩ else .failure u := by
  cases c <;> rfl

theorem schemeChar_eq (x : Nat) : (Letter x ∨ Spec.Digit x ∨ x = c!"+" ∨ x = c!"-" ∨ x = c!".") ↔ isSchemeChar x = true := by
  unfold isSchemeChar isAlnum
  have h1 : Letter x ↔ isAlpha x = true := isAlpha_iff.symm
  have h2 : Spec.Digit x ↔ isDigit x = true := by rw [← digit_eq, decide_eq_true_eq]
  rw [h1, h2]
  simp [or_assoc]

/-- where the standard and the library treat a state override alike -/
structure OverrideOK (ov : Option PState) (u : Rec) (buf : Str) : Prop where
  port : ov.isSome = true → u.port = some 0 → u.includesCredentials = false → u.isSpecial = true → u.scheme ≠ u!"file" → buf ≠ u!"file"
  host : ov.isSome = true → u.scheme = u!"file" → u.host ≠ none

theorem m_bad (hS : SimOK env e base s) {r buf : Str} {i : Nat} (hd : s.drop i = r) {u : Rec} {pp : List Str} (hp : ov = none → u.path = .list pp)
    (hfile : s = [] → ∀ b, base = some b → b.scheme ≠ u!"file")
    {st : Spec.State} (h : runState (machine env e base ov) r.head? r.tail ⟨st, i, buf, false, false, false, u⟩ =
      if (!ov.isSome) = true then .go ⟨.noScheme, -1, [], false, false, false, u⟩ else .failure u) :
    Halts (machine env e base ov) s ⟨st, i, buf, false, false, false, u⟩ (after env e base ov (schemeBad ov s u)) := by
  unfold schemeBad
  by_cases h1 : ov.isSome = true
  · rw [if_neg (by simp [h1])] at h
    rw [if_neg (by cases ov <;> simp_all), after_fail]
    exact m_fail hd h
  · rw [if_pos (by simp [h1])] at h
    rw [if_pos (by cases ov <;> simp_all), after_to]
    refine .next (k' := ⟨.noScheme, -1, [], false, false, false, u⟩) ?_ ?_ ?_
    · dsimp only
      rw [codePoint_drop, remaining_drop, hd]
      exact h
    · show (-1 : Int) ≠ s.length
      omega
    · exact m_noScheme (i := 0) hS rfl (Nat.zero_le _) (hp (by cases ov <;> simp_all)) (fun h => absurd h h1) hfile

theorem isDefaultPort_zero (x : Str) : isDefaultPort x 0 = false := by
  unfold isDefaultPort specialPort
  repeat' (first | rfl | split)

theorem ret_override {u : Rec} {buf : Str} (hv : ov.isSome = true) (hO : OverrideOK ov u buf) :
    (if (Spec.isSpecial u.scheme && !Spec.isSpecial buf) = true then Next.ret u
            else if (!Spec.isSpecial u.scheme && Spec.isSpecial buf) = true then .ret u
            else if ((Spec.hasCredentials u || u.port.isSome) && buf == u!"file") = true then .ret u
            else if (u.scheme == u!"file" && u.host == some (.str [])) = true then .ret u
            else .ret (match u.port with
              | some p => if Spec.isDefault buf p then { u with scheme := buf, port := none } else { u with scheme := buf }
              | none => { u with scheme := buf })) = .ret (overrideScheme u buf) := by
  have hhost : (u.scheme == u!"file" && u.host == some (.str [])) = (u.scheme == u!"file" && u.hostNoneOrEmpty) := by
    by_cases h : u.scheme = u!"file"
    · have := hO.host hv h
      unfold Rec.hostNoneOrEmpty
      cases hh : u.host with
      | none => exact absurd hh this
      | some hst =>
        congr 1
        rw [Bool.eq_iff_iff]
        cases hst with
        | str x => cases x <;> simp
        | ipv4 x => simp
        | ipv6 x => simp
    · have : (u.scheme == u!"file") = false := by simpa using h
      rw [this]; rfl
  by_cases hodd : u.port = some 0 ∧ u.includesCredentials = false ∧ buf = u!"file"
  · obtain ⟨hp0, hcr, rfl⟩ := hodd
    have hpt : u.portTruthy = false := by unfold Rec.portTruthy; rw [hp0]; rfl
    rw [isSpecial_rec, isSpecial_eq, hasCredentials_eq, hhost]
    unfold overrideScheme schemeRefused
    rw [hcr, hpt, hp0]
    have hsf : isSpecialScheme u!"file" = true := by decide
    rw [hsf]
    by_cases hsp : u.isSpecial = true
    · by_cases hf : u.scheme = u!"file"
      · rw [hsp]
        have e1 : ({ u with scheme := u!"file" } : Rec) = u := by rw [← hf]
        cases hn : u.hostNoneOrEmpty with
        | true => simp [hf]
        | false =>
          simp only [Bool.not_true, Bool.and_false, Bool.false_or, Bool.or_false, Bool.false_and, Option.isSome_some, beq_self_eq_true,
            Bool.and_self, if_true, if_neg Bool.false_ne_true, Bool.and_true, reduceCtorEq, if_false]
          rw [if_neg (by simp), ← hp0, e1]
      · exact absurd rfl (hO.port hv hp0 hcr hsp hf)
    · have hsp : u.isSpecial = false := by simpa using hsp
      rw [hsp]
      simp
  have hport : ((u.includesCredentials || u.port.isSome) && buf == u!"file") =
      ((u.includesCredentials || u.portTruthy) && buf == u!"file") := by
    unfold Rec.portTruthy
    cases hp : u.port with
    | none => rfl
    | some n =>
      by_cases hn : n = 0
      · subst hn
        cases hc : u.includesCredentials with
        | true => rfl
        | false =>
          have : buf ≠ u!"file" := fun h => hodd ⟨hp, hc, h⟩
          have : (buf == u!"file") = false := by simpa using this
          rw [this]; simp
      · simp [hn]
  rw [isSpecial_rec, isSpecial_eq, hasCredentials_eq, hport, hhost]
  unfold overrideScheme schemeRefused
  by_cases h1 : (u.isSpecial && !isSpecialScheme buf) = true
  · rw [if_pos h1, if_pos (by simp [h1])]
  rw [if_neg h1]
  by_cases h2 : (!u.isSpecial && isSpecialScheme buf) = true
  · rw [if_pos h2, if_pos (by simp [h2])]
  rw [if_neg h2]
  by_cases h3 : ((u.includesCredentials || u.portTruthy) && buf == u!"file") = true
  · rw [if_pos h3, if_pos (by simp only [h3]; simp)]
  rw [if_neg h3]
  by_cases h4 : (u.scheme == u!"file" && u.hostNoneOrEmpty) = true
  · rw [if_pos h4, if_pos (by simp only [h4]; simp)]
  rw [if_neg h4, if_neg (by
    simp only [Bool.or_eq_true, not_or]
    exact ⟨⟨⟨h1, h2⟩, h3⟩, h4⟩)]
  dsimp only
  cases hp : u.port with
  | none => rfl
  | some n =>
    dsimp only
    rw [isDefault_eq]
    by_cases hn : n = 0
    · subst hn
      rw [isDefaultPort_zero]
      rfl
    · have : (n != 0) = true := by simpa using hn
      rw [this, Bool.true_and]

theorem m_schemeDone (hS : SimOK env e base s) {r buf : Str} {i : Nat} (hd : s.drop i = 58 :: r)
    {u : Rec} {pp : List Str} (hp : ov = none → u.path = .list pp) (hO : OverrideOK ov u buf)
    (hfile : ov = none → buf = u!"file" → r = [] → ∀ b, base = some b → b.scheme ≠ u!"file") :
    Halts (machine env e base ov) s ⟨.scheme, i, buf, false, false, false, u⟩ (after env e base ov (schemeDone base ov buf r u)) := by
  have h := run_scheme (K := machine env e base ov) (some 58) r buf i false false false u
  dsimp only at h
  have hb : (machine env e base ov).base = base := rfl
  rw [if_neg (by decide), if_pos rfl, ov_isSome, hb] at h
  unfold schemeDone
  by_cases h1 : ov.isSome = true
  · rw [if_pos h1, ret_override h1 hO] at h
    rw [if_pos h1, after_to, E_eof]
    exact m_ret hd h
  · rw [if_neg h1] at h
    rw [if_neg h1]
    have hov : ov = none := by cases ov <;> simp_all
    have hp' : ({ u with scheme := buf } : Rec).path = .list pp := hp hov
    have hpt : ov.isSome = true → ({ u with scheme := buf } : Rec).port ≠ some 0 := fun h => absurd h h1
    have hd1 := drop_next hd
    have hi1 := drop_lt hd
    by_cases h2 : buf = u!"file"
    · rw [if_pos h2] at h
      rw [if_pos h2, after_to]
      exact m_adv hd h (m_file hS hd1 hi1 _ _ _ hp' (hfile hov h2))
    · rw [if_neg h2, isSpecial_eq] at h
      rw [if_neg h2]
      by_cases h3 : isSpecialScheme buf = true
      · rw [if_pos h3] at h
        rw [if_pos h3]
        by_cases h4 : sameScheme base buf = true
        · rw [if_pos h4, after_to]
          unfold sameScheme at h4
          cases hbase : base with
          | none => rw [hbase] at h4; cases h4
          | some bs =>
            rw [hbase] at h h4
            dsimp only at h h4
            rw [← hbase] at h ⊢
            have h4 : bs.scheme = buf := by simpa using h4
            rw [if_pos h4] at h
            obtain ⟨q, hq⟩ := hS.base bs hbase (by rw [h4]; exact h3)
            exact m_adv hd h (m_relativeOrAuthority hS hd1 hi1 hp' hpt hbase hq (by rw [h4]; exact h2))
        · rw [if_neg h4, after_to]
          unfold sameScheme at h4
          refine m_adv hd ?_ (m_authoritySlashes hS hd1 hi1 hp' hpt)
          cases hbase : base with
          | none => rw [hbase] at h; exact h
          | some bs =>
            rw [hbase] at h h4
            dsimp only at h h4
            rw [if_neg (by simpa using h4)] at h
            exact h
      · rw [if_neg h3] at h
        rw [if_neg h3]
        by_cases h4 : r.head? = some 47
        · rw [if_pos h4] at h
          rw [if_pos h4, after_to]
          cases r with
          | nil => simp at h4
          | cons x r =>
            exact m_skip hd h (m_pathOrAuthority hS (drop_next hd1) (drop_lt hd1) hp' hpt)
        · rw [if_neg h4] at h
          rw [if_neg h4, after_to]
          exact m_adv hd h (m_opaque hS r _ hd1 hi1 _ _ _ _ [] rfl)

theorem lower_append (a b : Str) : lower (a ++ b) = lower a ++ lower b := by
  unfold lower; rw [List.map_append]

theorem m_scheme_loop (hS : SimOK env e base s) {u : Rec} {pp : List Str} (hp : ov = none → u.path = .list pp)
    (hs : s = [] → ∀ b, base = some b → b.scheme ≠ u!"file") (rest : Str) :
    ∀ (i : Nat) (hd : s.drop i = rest) (hi : i ≤ s.length) (buf : Str)
    (hO : ∀ r, rest.dropWhile isSchemeChar = 58 :: r → OverrideOK ov u (buf ++ lower (rest.takeWhile isSchemeChar)))
    (hfile : ov = none → ∀ r, rest.dropWhile isSchemeChar = 58 :: r → buf ++ lower (rest.takeWhile isSchemeChar) = u!"file" →
      r = [] → ∀ b, base = some b → b.scheme ≠ u!"file"),
    Halts (machine env e base ov) s ⟨.scheme, i, buf, false, false, false, u⟩
      (after env e base ov
        (match rest.dropWhile isSchemeChar with
        | [] => schemeBad ov s u
        | d :: r => if d = c!":" then schemeDone base ov (buf ++ lower (rest.takeWhile isSchemeChar)) r u else schemeBad ov s u)) := by
  induction rest with
  | nil =>
    intro i hd hi buf hO hfile
    rw [List.dropWhile_nil]
    refine m_bad hS hd hp hs ?_
    have h := run_scheme (K := machine env e base ov) none [] buf i false false false u
    rw [ov_isSome] at h
    exact h
  | cons c cs ih =>
    intro i hd hi buf hO hfile
    have h := run_scheme (K := machine env e base ov) (some c) cs buf i false false false u
    dsimp only at h
    by_cases hc : isSchemeChar c = true
    · rw [if_pos ((schemeChar_eq c).2 hc)] at h
      rw [List.dropWhile_cons_of_pos hc, List.takeWhile_cons_of_pos hc] at hfile hO ⊢
      have e1 : ∀ t, buf ++ lower (c :: t) = (buf ++ Spec.toLower [c]) ++ lower t := by
        intro t
        rw [show c :: t = [c] ++ t from rfl, lower_append, toLower_eq_lower, List.append_assoc]
      rw [e1] at hfile hO ⊢
      exact m_adv hd h (ih (i + 1) (drop_next hd) (drop_lt hd) (buf ++ Spec.toLower [c]) hO hfile)
    · rw [if_neg (fun x => hc ((schemeChar_eq c).1 x))] at h
      rw [List.dropWhile_cons_of_neg hc, List.takeWhile_cons_of_neg hc] at hfile hO ⊢
      have hl : buf ++ lower [] = buf := List.append_nil buf
      rw [hl] at hfile hO ⊢
      dsimp only
      by_cases h1 : c = 58
      · rw [if_pos h1]
        exact m_schemeDone hS (h1 ▸ hd) hp (hO cs (by rw [h1])) (fun hov hb hr => hfile hov cs (by rw [h1]) hb hr)
      · rw [if_neg h1, ov_isSome] at h
        rw [if_neg h1]
        exact m_bad hS hd hp hs h

theorem run_schemeStart (c : Option Nat) (r buf : Str) (i : Int) (a b p : Bool) (u : Rec) :
    runState K c r ⟨.schemeStart, i, buf, a, b, p, u⟩ =
      match c with
      | some x =>
        if Letter x then .go ⟨.scheme, i, buf ++ Spec.toLower [x], a, b, p, u⟩
        else if (!K.override.isSome) = true then .go ⟨.noScheme, i - 1, buf, a, b, p, u⟩ else .failure u
      | none => if (!K.override.isSome) = true then .go ⟨.noScheme, i - 1, buf, a, b, p, u⟩ else .failure u := by
  cases c <;> rfl

theorem m_start (hS : SimOK env e base s) {u : Rec} {pp : List Str} (hp : ov = none → u.path = .list pp)
    (hO : ∀ buf r, takeScheme s = some (buf, r) → OverrideOK ov u buf)
    (hfile : ov = none → ∀ b, base = some b → b.scheme = u!"file" → s ≠ [] ∧ takeScheme s ≠ some (u!"file", [])) :
    Halts (machine env e base ov) s (.start .schemeStart u) (E env e base ov .schemeStart s u) := by
  have hs : ov = none → s = [] → ∀ b, base = some b → b.scheme ≠ u!"file" := fun hov h b hb hf => (hfile hov b hb hf).1 h
  rw [E_step (by decide)]
  show Halts _ _ ⟨.schemeStart, ((0 : Nat) : Int), [], false, false, false, u⟩ (after env e base ov (sScheme base ov s u))
  rw [sScheme_eq]
  have hbad : ∀ c r, s.head? = c → s.tail = r → takeScheme s = none →
      runState (machine env e base ov) c r ⟨.schemeStart, ((0 : Nat) : Int), [], false, false, false, u⟩ =
        (if (!ov.isSome) = true then .go ⟨.noScheme, ((0 : Nat) : Int) - 1, [], false, false, false, u⟩ else .failure u) →
      Halts (machine env e base ov) s ⟨.schemeStart, ((0 : Nat) : Int), [], false, false, false, u⟩
        (after env e base ov (schemeBad ov s u)) := by
    intro c r hc hr ht h
    subst hc hr
    unfold schemeBad
    by_cases h1 : ov.isSome = true
    · rw [if_neg (by simp [h1])] at h
      rw [if_neg (by cases ov <;> simp_all), after_fail]
      exact m_fail rfl h
    · have hov : ov = none := by cases ov <;> simp_all
      rw [if_pos (by simp [h1])] at h
      rw [if_pos (by cases ov <;> simp_all), after_to]
      exact m_stay rfl (Nat.zero_le _) h (m_noScheme (i := 0) hS rfl (Nat.zero_le _) (hp hov) (fun h => absurd h h1) (hs hov))
  have hrun := run_schemeStart (K := machine env e base ov) s.head? s.tail [] ((0 : Nat) : Int) false false false u
  rw [ov_isSome] at hrun
  rcases (show s = [] ∨ ∃ c cs, s = c :: cs by cases s <;> simp) with hcase | ⟨c, cs, hcase⟩
  · have ht : takeScheme s = none := by rw [hcase]; rfl
    rw [ht]
    rw [hcase] at hrun
    exact hbad none [] (by rw [hcase]; rfl) (by rw [hcase]; rfl) ht hrun
  · rw [hcase] at hrun
    dsimp only [List.head?_cons, List.tail_cons] at hrun
    by_cases hl : Letter c
    · rw [if_pos hl] at hrun
      have ha : isAlpha c = true := isAlpha_iff.2 hl
      have hd : s.drop 0 = c :: cs := hcase
      have ht : takeScheme (c :: cs) = match cs.dropWhile isSchemeChar with
          | [] => none
          | d :: r => if d = c!":" then some (lower (c :: cs.takeWhile isSchemeChar), r) else none := by
        show (if !isAlpha c then none else _) = _
        rw [if_neg (by simp [ha])]
        rfl
      have hlow : ∀ t, Spec.toLower [c] ++ lower t = lower (c :: t) := by
        intro t
        rw [toLower_eq_lower, ← lower_append]; rfl
      have key := m_scheme_loop (base := base) (ov := ov) hS hp (by intro h; rw [hcase] at h; cases h) cs 1
        (drop_next hd) (drop_lt hd) (Spec.toLower [c]) (by
          intro r hr
          refine hO _ r ?_
          rw [hcase, ht, hr]
          dsimp only
          rw [if_pos rfl, ← hlow]) (by
          intro hov r hr hbuf hr0 b hb hf
          refine (hfile hov b hb hf).2 ?_
          rw [hcase, ht, hr]
          dsimp only
          rw [if_pos rfl, ← hlow, hbuf, hr0])
      rw [← hcase] at ht
      rw [ht]
      refine m_adv hd hrun ?_
      rw [hlow] at key
      cases hdw : cs.dropWhile isSchemeChar with
      | nil =>
        rw [hdw] at key
        exact key
      | cons d r =>
        rw [hdw] at key
        dsimp only at key ⊢
        by_cases h1 : d = 58
        · rw [if_pos h1] at key
          rw [if_pos h1]
          exact key
        · rw [if_neg h1] at key
          rw [if_neg h1]
          exact key
    · rw [if_neg hl] at hrun
      have ha : isAlpha c = false := by
        rw [Bool.eq_false_iff]
        intro h
        exact hl (isAlpha_iff.1 h)
      have ht : takeScheme s = none := by
        rw [hcase]
        show (if !isAlpha c then none else _) = _
        rw [if_pos (by simp [ha])]
      rw [ht]
      exact hbad (some c) cs (by rw [hcase]; rfl) (by rw [hcase]; rfl) ht hrun

end

end Urlstd
