/-
The validation errors that the standard's state machine reports are those that the parser records: file URLs, schemes.
-/
import Verif.Lemmas.Reports2
import Verif.Lemmas.Span

set_option linter.unusedSimpArgs false
set_option linter.unusedVariables false

namespace Urlstd

open Spec (IsStr IsScalarStr encodeCP encodeAfter encoder Letter Cfg Ctx Next Outcome runState codePoint Reports stateErrors)

/-- what the code records (`l'`) against what the standard reports (`l`) -/
def Tally (base : Option Rec) (s : Str) (l l' : List VErr) : Prop :=
  (¬ Spec.PipeDrive base s ∧ l' = l) ∨ (Spec.PipeDrive base s ∧ Spec.ExtraUnit l l')

theorem Tally.prepend {base : Option Rec} {s : Str} {l l' : List VErr} (h : Tally base s l l') (x : List VErr) :
    Tally base s (x ++ l) (x ++ l') := by
  rcases h with ⟨h0, h⟩ | ⟨h, y, z, h1, h2⟩
  · exact .inl ⟨h0, by rw [h]⟩
  · exact .inr ⟨h, x ++ y, z, by rw [h1, List.append_assoc], by rw [h2, List.append_assoc]⟩

section
variable {env : Env} {e : Encoding} {s : Str} {base : Option Rec} {R : Str → Bool → List VErr}

/-- the standard reports `l` from the configuration, up to the known difference -/
abbrev Rep' (env : Env) (e : Encoding) (base : Option Rec) (s : Str) (k : Cfg) (l : List VErr) : Prop :=
  ∃ l0, Tally base s l0 l ∧ Rep env e base s k l0

theorem Rep'.of {k : Cfg} {l : List VErr} (hn : ¬ Spec.PipeDrive base s) (h : Rep env e base s k l) : Rep' env e base s k l :=
  ⟨l, .inl ⟨hn, rfl⟩, h⟩

/-- the same step before both -/
theorem Rep'.map {k k' : Cfg} {l er : List VErr} (h : Rep' env e base s k l)
    (f : ∀ l0, Rep env e base s k l0 → Rep env e base s k' (er ++ l0)) : Rep' env e base s k' (er ++ l) := by
  obtain ⟨l0, h1, h2⟩ := h
  exact ⟨er ++ l0, h1.prepend er, f l0 h2⟩

/-! ### file host -/

/-- the text begins with "file:" -/
def FileScheme (s : Str) : Prop := ∃ x t, s = x ++ t ∧ Spec.toLower x = u!"file:"

/-- what precedes the slashes of a file URL -/
def FileLead (base : Option Rec) (s x : Str) : Prop :=
  (x = [] ∧ (∃ r, base = some r ∧ r.scheme = u!"file" ∧ Spec.isOpaque r = false) ∧ ¬ FileScheme s) ∨ Spec.toLower x = u!"file:"

def SlashCP (a : Nat) : Prop := a = c!"/" ∨ a = c!"\\"

theorem fileLead_length {x : Str} (h : Spec.toLower x = u!"file:") : x.length = 5 := by
  have := congrArg List.length h
  unfold Spec.toLower at this
  simpa using this

theorem fileScheme_slash {a : Nat} {t : Str} (ha : SlashCP a) : ¬ FileScheme (a :: t) := by
  rintro ⟨x, t', h, hx⟩
  cases x with
  | nil => cases hx
  | cons c x =>
    have h : a :: t = c :: (x ++ t') := h
    injection h with h1 _
    subst h1
    unfold Spec.toLower at hx
    rw [List.map_cons] at hx
    injection hx with hx _
    rcases ha with rfl | rfl <;> exact absurd hx (by decide)

/-- where the drive letter stands -/
theorem pipe_at {x t : Str} (hx : FileLead base s x) (hs : s = x ++ t) (h : Spec.PipeDrive base s) :
    ∃ a b c y, t = a :: b :: c :: c!"|" :: y ∧ SlashCP a ∧ SlashCP b ∧ Letter c ∧ (y = [] ∨ ∃ d r, y = d :: r ∧ d ∈ u!"/\\?#") := by
  obtain ⟨x', a, b, c, y, hs', hx', ha, hb, hc, hy⟩ := h
  suffices x = x' by
    subst this
    exact ⟨a, b, c, y, List.append_cancel_left (hs.symm.trans hs'), ha, hb, hc, hy⟩
  rcases hx with ⟨rfl, -, hn⟩ | hx
  · rcases hx' with ⟨rfl, -⟩ | hx'
    · rfl
    · exact absurd ⟨x', _, hs', hx'⟩ hn
  · rcases hx' with ⟨rfl, -⟩ | hx'
    · have : ¬ FileScheme s := by rw [hs']; exact fileScheme_slash ha
      exact absurd ⟨x, t, hs, hx⟩ this
    · exact List.append_inj_left (hs.symm.trans hs') ((fileLead_length hx).trans (fileLead_length hx').symm)

theorem noPipe_noScheme (hn : ¬ FileScheme s) (hb : ¬ ∃ r, base = some r ∧ r.scheme = u!"file" ∧ Spec.isOpaque r = false) :
    ¬ Spec.PipeDrive base s := by
  rintro ⟨x, a, b, c, y, hs, ⟨-, h⟩ | h, -⟩
  · exact hb h
  · exact hn ⟨x, _, hs, h⟩

theorem lower_schemeChar {c : Nat} (h : Spec.toLower [c] = u!"f" ∨ Spec.toLower [c] = u!"i" ∨ Spec.toLower [c] = u!"l" ∨ Spec.toLower [c] = u!"e") :
    isSchemeChar c = true := by
  have h : Letter c := by
    unfold Spec.toLower at h
    simp only [List.map_cons, List.map_nil, List.cons.injEq, and_true] at h
    unfold Letter
    split at h <;> omega
  unfold isSchemeChar isAlnum
  rw [isAlpha_iff.2 h]
  rfl

/-- a text that is read as "m" of scheme code points, and then something else -/
theorem fileScheme_split {m r : Str} (hs : s = m ++ r) (hm : ∀ c ∈ m, isSchemeChar c = true)
    (hr : ∀ c, r.head? = some c → isSchemeChar c = false) (h : FileScheme s) : r.head? = some c!":" ∧ Spec.toLower m = u!"file" := by
  obtain ⟨x, t, hs', hx⟩ := h
  have hlen : x.length = 5 := by
    have := congrArg List.length hx
    simpa [Spec.toLower] using this
  unfold Spec.toLower at hx ⊢
  match x, hlen with
  | [c1, c2, c3, c4, c5], _ =>
    simp only [List.map_cons, List.map_nil, List.cons.injEq, and_true] at hx
    obtain ⟨h1, h2, h3, h4, h5⟩ := hx
    have e5 : c5 = c!":" := by
      split at h5 <;> omega
    subst e5
    have := span_unique (stop := fun c => isSchemeChar c = false) (p := m) (r := r) (p' := [c1, c2, c3, c4]) (r' := c!":" :: t)
      (hs.symm.trans hs') (fun c hc => by rw [hm c hc]; simp) (by
        intro c hc
        simp only [List.mem_cons, List.not_mem_nil, or_false] at hc
        have : isSchemeChar c = true := by
          refine lower_schemeChar ?_
          unfold Spec.toLower
          rcases hc with rfl | rfl | rfl | rfl
          · exact .inl (by simp [h1])
          · exact .inr (.inl (by simp [h2]))
          · exact .inr (.inr (.inl (by simp [h3])))
          · exact .inr (.inr (.inr (by simp [h4])))
        rw [this]
        simp) hr (by
        intro c hc
        cases hc
        decide)
    obtain ⟨rfl, rfl⟩ := this
    exact ⟨rfl, by simp [h1, h2, h3, h4]⟩

theorem unitLog_alpha {c : Nat} (h : isAlpha c = true) (cs : Str) : unitLog c cs = [] := by
  have h1 : isUrlCP c = true := (urlCodePoint_iff c).1 (.inl (isAlpha_iff.1 h))
  have h2 : c ≠ 37 := by rintro rfl; revert h; decide
  unfold unitLog
  simp [h1, h2]

theorem pathLoop_drive {sch : Str} {x y : Nat} (hx : isAlpha x = true) (hy : y = 58 ∨ y = 124) (r : Str) (i : Nat) (pp : List Str) :
    pathLoop sch false (x :: y :: r) i [] pp [] =
      pathLoop sch false r (i + 1 + 1) [x, y] pp (if y = 124 then [.ev .invalidURLUnit] else []) := by
  have hx' : x ≠ 47 ∧ x ≠ 92 ∧ x ≠ 63 ∧ x ≠ 35 := by
    refine ⟨?_, ?_, ?_, ?_⟩ <;> (rintro rfl; revert hx; decide)
  have hy' : y ≠ 47 ∧ y ≠ 92 ∧ y ≠ 63 ∧ y ≠ 35 := by
    rcases hy with rfl | rfl <;> decide
  have hl : unitLog y r = if y = 124 then [.ev .invalidURLUnit] else [] := by
    unfold unitLog
    have h1 : isUrlCP 58 = true := by decide
    have h2 : isUrlCP 124 = false := by decide
    rcases hy with rfl | rfl
    · simp [h1]
    · simp [h2]
  rw [pathLoop]
  simp only [hx'.1, hx'.2.1, hx'.2.2.1, hx'.2.2.2, if_false, decide_false, Bool.and_false,
    Bool.false_eq_true, unitLog_alpha hx, List.append_nil, List.nil_append]
  rw [pathLoop]
  simp only [hx'.1, hx'.2.1, hx'.2.2.1, hx'.2.2.2, hy'.1, hy'.2.1, hy'.2.2.1, hy'.2.2.2, if_false, decide_false, Bool.and_false,
    Bool.false_eq_true, unitLog_alpha hx, hl, List.append_nil, List.nil_append, List.cons_append]

theorem err_fileHost (c : Option Nat) (r buf : Str) (i : Int) (a b p : Bool) (v : Rec) :
    stateErrors (machine env e base none) R c r ⟨.fileHost, i, buf, a, b, p, v⟩ =
      if c = none ∨ c = some c!"/" ∨ c = some c!"\\" ∨ c = some c!"?" ∨ c = some c!"#" then
        (if Spec.isDrive buf = true then [.fileInvalidWindowsDriveLetterHost]
        else if buf = [] then []
        else R buf (!Spec.isSpecial v.scheme))
      else [] := by
  cases c <;> simp [stateErrors, machine]

theorem t_fileHost_end {r buf : Str} {i : Nat} (hd : s.drop i = r) (hi : i ≤ s.length)
    (hlead : ∃ x a b, s.take i = x ++ a :: b :: buf ∧ FileLead base s x ∧ SlashCP a ∧ SlashCP b)
    (hbuf : ∀ c ∈ buf, c ∉ u!"/\\?#") (a b p : Bool) {u v : Rec} (hv : v.scheme = u.scheme)
    (hr : r.head? = none ∨ r.head? = some c!"/" ∨ r.head? = some c!"\\" ∨ r.head? = some c!"?" ∨ r.head? = some c!"#")
    {l : List VErr} (h : EmitsOut env e s base (fileHostEnd env false i buf u) l) :
    Rep' env e base s ⟨.fileHost, i, buf, a, b, p, v⟩ l := by
  have hrun := run_fileHost (K := machine env e base none) r.head? r.tail buf i a b p v
  have he := err_fileHost (env := env) (e := e) (base := base) (R := reportOf env) r.head? r.tail buf i a b p v
  rw [if_pos hr] at hrun he
  rw [ov_isSome] at hrun
  simp only [Option.isSome_none, Bool.not_false, Bool.true_and, if_false, Bool.false_eq_true] at hrun
  rw [isDrive_eq] at hrun he
  unfold fileHostEnd at h
  simp only [Bool.not_false, Bool.true_and, if_false, Bool.false_eq_true] at h
  have hlen : buf.length ≤ i := by
    obtain ⟨x, a, b, h1, _⟩ := hlead
    have := congrArg List.length h1
    simp at this
    omega
  have hpipe : Spec.PipeDrive base s → ∃ c, buf = [c, c!"|"] ∧ Letter c := by
    obtain ⟨w, a', b', hw, hlead', ha', hb'⟩ := hlead
    have hs : s = w ++ (a' :: b' :: (buf ++ r)) := by
      have h3 := List.take_append_drop i s
      rw [hw, hd] at h3
      rw [← h3, List.append_assoc]
      rfl
    intro hp
    obtain ⟨x, y, c, t, ht, -, -, hc, hy⟩ := pipe_at hlead' hs hp
    injection ht with _ ht
    injection ht with _ ht
    have := span_unique (stop := fun c => c ∈ u!"/\\?#") (p := buf) (r := r) (p' := [c, c!"|"]) (r' := t) ht hbuf (by
        intro z hz
        simp only [List.mem_cons, List.not_mem_nil, or_false] at hz ⊢
        rcases hz with rfl | rfl
        · unfold Letter at hc
          omega
        · decide) (by
        intro z hz
        rw [hz] at hr
        simpa using hr) (by
        intro z hz
        rcases hy with rfl | ⟨d, q, rfl, hd⟩
        · cases hz
        · cases hz
          exact hd)
    exact ⟨c, this.1, hc⟩
  by_cases h1 : isWindowsDriveLetter buf = true
  · rw [if_pos h1] at hrun he h
    obtain ⟨l', g1, g2⟩ := h.to
    have g1 := g1.step (by decide)
    obtain ⟨x, y, rfl, hx, hy⟩ := drive_shape h1
    change EmitsOut env e s base (parsePath s (i - 2) u none) l' at g1
    have hi2 : 2 ≤ i := hlen
    obtain ⟨w, a', b', hw, hlead', ha', hb'⟩ := hlead
    have hs : s = w ++ a' :: b' :: x :: y :: r := by
      have h3 := List.take_append_drop i s
      rw [hw, hd] at h3
      rw [← h3, List.append_assoc]
      rfl
    have hwlen : i = w.length + 4 := by
      have := congrArg List.length hw
      simp at this
      omega
    have hd2 : s.drop (i - 2) = x :: y :: r := by
      rw [hs, hwlen]
      simp
    unfold parsePath at g1
    rw [hd2] at g1
    split at g1
    · obtain ⟨h1, _⟩ := g1.fail; cases h1
    · rename_i pp hpp
      have hidx : i - 2 + 1 + 1 = i := by omega
      simp only [Option.isSome_none] at g1
      rw [pathLoop_drive hx hy, hidx] at g1
      obtain ⟨l2, k1, k2⟩ := t_path_loop (env := env) (e := e) (base := base) (R := reportOf env) r i hd hi u.scheme [x, y] pp
        (if y = 124 then [.ev .invalidURLUnit] else []) [x, y] a b p v hv
      rcases hq : pathLoop u.scheme false r i [x, y] pp (if y = 124 then [.ev .invalidURLUnit] else []) with ⟨pp', st, j, log⟩
      rw [hq] at g1 k1 k2
      dsimp only at g1 k1 k2
      obtain ⟨l3, m1, m2⟩ := g1.to
      have hrep := t_stay hd hi hrun he (k2 l3 _ m1)
      refine ⟨_, ?_, hrep⟩
      rw [g2, m2, k1]
      rcases hy with rfl | rfl
      · refine .inl ⟨fun hp => ?_, rfl⟩
        obtain ⟨c, hc, -⟩ := hpipe hp
        cases hc
      · refine .inr ⟨⟨w, a', b', x, r, hs, hlead'.imp (fun h => ⟨h.1, h.2.1⟩) id, ha', hb', isAlpha_iff.1 hx, ?_⟩, [], l2 ++ l3, rfl, rfl⟩
        cases r with
        | nil => exact .inl rfl
        | cons d r => exact .inr ⟨d, r, rfl, by simpa using hr⟩
  · have hnp : ¬ Spec.PipeDrive base s := by
      intro hp
      obtain ⟨c, rfl, hc⟩ := hpipe hp
      refine h1 ?_
      unfold isWindowsDriveLetter
      simp [isAlpha_iff.2 hc]
    rw [if_neg h1] at hrun he h
    by_cases h2 : buf = []
    · rw [if_pos h2] at hrun he
      rw [if_pos (by rw [h2]; rfl)] at h
      obtain ⟨l', g1, g2⟩ := h.to
      rw [g2]
      exact .of hnp (t_stay (er := []) hd hi hrun he (t_pathStart hd hi _ _ _ _ (by exact hv) g1))
    · rw [if_neg h2, isSpecial_of hv] at hrun he
      rw [if_neg (by simpa using h2)] at h
      have hrun : _ = (match hostOf env buf (!u.isSpecial) with
          | none => Next.failure v
          | some h => Next.go ⟨.pathStart, i - 1, [], a, b, p, { v with host := some (if h = Host.str u!"localhost" then Host.str [] else h) }⟩) := hrun
      unfold hostOf at hrun
      unfold reportOf at he
      rcases hh : hostParse env buf (!u.isSpecial) with ⟨res, log⟩
      rw [hh] at hrun he h
      cases res with
      | error err =>
        dsimp only at hrun he h
        obtain ⟨_, g2⟩ := h.fail
        rw [g2]
        exact .of hnp (t_fail hd hrun he)
      | ok hst =>
        dsimp only at hrun he h
        obtain ⟨l', g1, g2⟩ := h.to
        rw [g2]
        exact .of hnp (t_stay hd hi hrun he (t_pathStart hd hi _ _ _ _ (by exact hv) g1))

theorem take_next {i c : Nat} {cs : Str} (hd : s.drop i = c :: cs) : s.take (i + 1) = s.take i ++ [c] := by
  rw [List.take_add_one]
  have : s[i]? = some c := by
    have := congrArg (·[0]?) hd
    simpa using this
  rw [this]
  rfl

theorem t_fileHost_loop (rest : Str) : ∀ (i : Nat) (hd : s.drop i = rest) (hi : i ≤ s.length) (buf : Str)
    (hlead : ∃ x a b, s.take i = x ++ a :: b :: buf ∧ FileLead base s x ∧ SlashCP a ∧ SlashCP b)
    (hbuf : ∀ c ∈ buf, c ∉ u!"/\\?#") (a b p : Bool) (u v : Rec)
    (hv : v.scheme = u.scheme) (l : List VErr) (h : EmitsOut env e s base (fileHostLoop env false rest i buf u) l),
    Rep' env e base s ⟨.fileHost, i, buf, a, b, p, v⟩ l := by
  induction rest with
  | nil =>
    intro i hd hi buf hlead hbuf a b p u v hv l h
    exact t_fileHost_end hd hi hlead hbuf a b p hv (.inl rfl) h
  | cons c cs ih =>
    intro i hd hi buf hlead hbuf a b p u v hv l h
    unfold fileHostLoop at h
    by_cases h1 : c = c!"/" ∨ c = c!"\\" ∨ c = c!"?" ∨ c = c!"#"
    · rw [if_pos (by simpa [or_assoc] using h1)] at h
      exact t_fileHost_end hd hi hlead hbuf a b p hv (.inr (by simpa using h1)) h
    · rw [if_neg (by simpa [or_assoc] using h1)] at h
      have hrun := run_fileHost (K := machine env e base none) (some c) cs buf i a b p v
      have he := err_fileHost (env := env) (e := e) (base := base) (R := reportOf env) (some c) cs buf i a b p v
      rw [if_neg (by simpa using h1)] at hrun he
      refine (ih (i + 1) (drop_next hd) (drop_lt hd) (buf ++ [c]) ?_ ?_ a b p u v hv l h).map (er := [])
        (fun l0 h0 => t_adv hd hrun he h0)
      · obtain ⟨x, a', b', k1, k2⟩ := hlead
        exact ⟨x, a', b', by rw [take_next hd, k1, List.append_assoc]; rfl, k2⟩
      · intro z hz
        rcases List.mem_append.1 hz with hz | hz
        · exact hbuf z hz
        · cases List.mem_singleton.1 hz
          simpa using h1

theorem t_fileHost {rest : Str} {i : Nat} (hd : s.drop i = rest) (hi : i ≤ s.length)
    (hlead : ∃ x a b, s.take i = x ++ [a, b] ∧ FileLead base s x ∧ SlashCP a ∧ SlashCP b) (a b p : Bool) {u v : Rec}
    (hv : v.scheme = u.scheme) {l : List VErr} (h : Emits env e s base .fileHost i u l) :
    Rep' env e base s ⟨.fileHost, i, [], a, b, p, v⟩ l := by
  have h := h.step (by decide)
  change EmitsOut env e s base (fileHostLoop env false (s.drop i) i [] u) l at h
  rw [hd] at h
  exact t_fileHost_loop rest i hd hi [] hlead (by intro c hc; cases hc) a b p u v hv l h

/-! ### file slash -/

theorem path_nil {i : Nat} (hd : s.drop i = []) (hi : i ≤ s.length) {u : Rec} {l : List VErr}
    (h : Emits env e s base .path i u l) : l = [] := by
  have h1 := t_path (R := reportOf env) hd hi [] false false false (v := u) rfl h
  refine h1.unique ?_
  have hr := run_path (K := machine env e base none) none [] [] i false false false u
  dsimp only at hr
  rw [if_pos (by simp), if_neg (by simp), if_neg (by simp)] at hr
  exact t_end hd hi hr (by simp [stateErrors, Spec.unitErrors])

/-- `_parse_file_slash` without a second slash -/
def fileSlashOther (rest : Str) (i : Nat) (base : Option Rec) (u : Rec) : Out :=
  match base with
  | none => .to .path i u
  | some b =>
    if b.scheme = u!"file" then
      match b.path with
      | .list (p0 :: _) =>
        if !startsWithWindowsDriveLetter rest && isNormalizedWindowsDriveLetter p0 then
          match u.path with
          | .list p => .to .path i { u with host := b.host, path := .list (p ++ [p0]) }
          | .opaque _ => .fail .assertionError { u with host := b.host }
        else .to .path i { u with host := b.host }
      | _ => .to .path i { u with host := b.host }
    else .to .path i u

theorem fileSlash_other {rest : Str} {i : Nat} (hd : s.drop i = rest) (hi : i ≤ s.length) (a b p : Bool) {u v : Rec}
    (hv : v.scheme = u.scheme) {l : List VErr} {st : Spec.State} {buf : Str}
    (hrun : ∃ w, runState (machine env e base none) rest.head? rest.tail ⟨st, i, buf, a, b, p, v⟩ =
      .go ⟨.path, i - 1, buf, a, b, p, w⟩ ∧ w.scheme = v.scheme) {er : List VErr}
    (he : stateErrors (machine env e base none) (reportOf env) rest.head? rest.tail ⟨st, i, buf, a, b, p, v⟩ = er)
    {w' : Rec} (hw' : w'.scheme = u.scheme) {log : Log} (hlog : types log = er)
    (h : EmitsOut env e s base (.to .path i w' log) l) :
    Rep env e base s ⟨st, i, buf, a, b, p, v⟩ l := by
  obtain ⟨w, h1, h2⟩ := hrun
  obtain ⟨l', g1, g2⟩ := h.to
  rw [g2, hlog]
  exact t_stay hd hi h1 he (t_path hd hi _ _ _ _ (by rw [h2, hv, hw']) g1)

theorem t_fileSlash {rest : Str} {i : Nat} (hd : s.drop i = rest) (hi : i ≤ s.length)
    (hlead : ∃ x a, s.take i = x ++ [a] ∧ FileLead base s x ∧ SlashCP a) (a b p : Bool) {u v : Rec}
    (hv : v.scheme = u.scheme) {l : List VErr} (h : Emits env e s base .fileSlash i u l) :
    Rep' env e base s ⟨.fileSlash, i, [], a, b, p, v⟩ l := by
  have h := h.step (by decide)
  change EmitsOut env e s base (parseFileSlash s i base u) l at h
  unfold parseFileSlash at h
  dsimp only at h
  rw [hd] at h
  have hb : (machine env e base none).base = base := rfl
  have hrun := run_fileSlash (K := machine env e base none) rest.head? rest.tail [] i a b p v
  rw [hb, here_eq] at hrun
  have he : ∀ c r, stateErrors (machine env e base none) (reportOf env) c r ⟨.fileSlash, i, [], a, b, p, v⟩ =
      if c = some c!"\\" then [.invalidReverseSolidus] else [] := fun c r => rfl
  have hother : ¬ (rest.head? = some c!"/" ∨ rest.head? = some c!"\\") →
      ∃ w, runState (machine env e base none) rest.head? rest.tail ⟨.fileSlash, i, [], a, b, p, v⟩ =
        .go ⟨.path, i - 1, [], a, b, p, w⟩ ∧ w.scheme = v.scheme := by
    intro hn
    rw [if_neg hn] at hrun
    cases hbase : base with
    | none => rw [hbase] at hrun; exact ⟨_, hrun, rfl⟩
    | some bs =>
      rw [hbase] at hrun
      dsimp only at hrun
      split at hrun
      · refine ⟨_, hrun, ?_⟩
        split
        · split
          · rw [pushSegment_scheme]
          · rfl
        · rfl
      · exact ⟨_, hrun, rfl⟩
  have key : ¬ (rest.head? = some c!"/" ∨ rest.head? = some c!"\\") → ∀ w',
      EmitsOut env e s base (.to .path i w' []) l → w'.scheme = u.scheme → Rep' env e base s ⟨.fileSlash, i, [], a, b, p, v⟩ l := by
    intro hn w' h hw'
    have hnp : ¬ Spec.PipeDrive base s := by
      intro hp
      obtain ⟨x, a', hx, hlead', -⟩ := hlead
      have hs : s = x ++ (a' :: rest) := by
        have h3 := List.take_append_drop i s
        rw [hx, hd] at h3
        rw [← h3, List.append_assoc]
        rfl
      obtain ⟨x, y, c, t, ht, -, hy, -, -⟩ := pipe_at hlead' hs hp
      injection ht with _ ht
      rw [ht] at hn
      exact hn (hy.imp (fun h => by rw [h]; rfl) (fun h => by rw [h]; rfl))
    refine .of hnp (fileSlash_other hd hi a b p hv (hother hn) (er := []) ?_ hw' rfl h)
    rw [he, if_neg (fun hx => hn (.inr hx))]
  have key2 : ¬ (rest.head? = some c!"/" ∨ rest.head? = some c!"\\") →
      EmitsOut env e s base (fileSlashOther rest i base u) l → Rep' env e base s ⟨.fileSlash, i, [], a, b, p, v⟩ l := by
    intro hn h
    unfold fileSlashOther at h
    cases hbase : base with
    | none => rw [hbase] at h; rw [← hbase]; exact key hn _ (by rw [hbase]; exact h) rfl
    | some bs =>
      rw [hbase] at h; rw [← hbase]
      dsimp only at h
      split at h
      · split at h
        · split at h
          · split at h
            · rw [← hbase] at h; exact key hn _ h rfl
            · obtain ⟨g1, _⟩ := h.fail; cases g1
          · rw [← hbase] at h; exact key hn _ h rfl
        · rw [← hbase] at h; exact key hn _ h rfl
      · rw [← hbase] at h; exact key hn _ h rfl
  cases rest with
  | nil => exact key2 (by simp) h
  | cons c cs =>
    dsimp only at h
    have hhost : SlashCP c → ∃ x a b, s.take (i + 1) = x ++ [a, b] ∧ FileLead base s x ∧ SlashCP a ∧ SlashCP b := by
      intro hc
      obtain ⟨x, a', k1, k2, k3⟩ := hlead
      exact ⟨x, a', c, by rw [take_next hd, k1, List.append_assoc]; rfl, k2, k3, hc⟩
    have he := he (some c) cs
    rw [List.head?_cons, List.tail_cons] at hrun
    by_cases h1 : c = c!"/"
    · rw [if_pos h1] at h
      rw [if_pos (by simp [h1])] at hrun
      rw [if_neg (by simp [h1])] at he
      obtain ⟨l', g1, g2⟩ := h.to
      rw [g2]
      exact (t_fileHost (drop_next hd) (drop_lt hd) (hhost (.inl h1)) a b p hv g1).map (er := []) (fun l0 h0 => t_adv hd hrun he h0)
    · rw [if_neg h1] at h
      by_cases h2 : c = c!"\\"
      · rw [if_pos h2] at h
        rw [if_pos (by simp [h2])] at hrun
        rw [if_pos (by simp [h2])] at he
        obtain ⟨l', g1, g2⟩ := h.to
        rw [g2]
        exact (t_fileHost (drop_next hd) (drop_lt hd) (hhost (.inr h2)) a b p hv g1).map (fun l0 h0 => t_adv hd hrun he h0)
      · rw [if_neg h2] at h
        exact key2 (by simpa using ⟨h1, h2⟩) h

/-! ### file -/

theorem err_file (c : Option Nat) (r buf : Str) (i : Int) (a b p : Bool) (v : Rec) :
    stateErrors (machine env e base none) R c r ⟨.file, i, buf, a, b, p, v⟩ =
      if c = some c!"/" then []
      else if c = some c!"\\" then [.invalidReverseSolidus]
      else
        match base with
        | some b =>
          if b.scheme = u!"file" ∧ c ≠ none ∧ c ≠ some c!"?" ∧ c ≠ some c!"#" ∧
              Spec.startsWithDrive (match c with | some x => x :: r | none => []) = true then
            [.fileInvalidWindowsDriveLetter]
          else []
        | none => [] := rfl

theorem t_file {rest : Str} {i : Nat} (hd : s.drop i = rest) (hi : i ≤ s.length)
    (hlead : FileLead base s (s.take i)) (a b p : Bool) {u v : Rec} {l : List VErr} (h : Emits env e s base .file i u l) :
    Rep' env e base s ⟨.file, i, [], a, b, p, v⟩ l := by
  have h := h.step (by decide)
  change EmitsOut env e s base (parseFile s i base u) l at h
  unfold parseFile at h
  dsimp only at h
  rw [hd] at h
  have hb : (machine env e base none).base = base := rfl
  have hrun := run_file (K := machine env e base none) rest.head? rest.tail [] i a b p v
  have he := err_file (env := env) (e := e) (base := base) (R := reportOf env) rest.head? rest.tail [] i a b p v
  rw [hb] at hrun
  have hnp : ¬ (rest.head? = some c!"/" ∨ rest.head? = some c!"\\") → ¬ Spec.PipeDrive base s := by
    intro hn hp
    have hs : s = s.take i ++ rest := by rw [← hd]; exact (List.take_append_drop i s).symm
    obtain ⟨x, y, c, t, ht, hx, -⟩ := pipe_at hlead hs hp
    rw [ht] at hn
    exact hn (hx.imp (fun h => by rw [h]; rfl) (fun h => by rw [h]; rfl))
  cases rest with
  | nil =>
    have hnp := hnp (by simp)
    have hrun := run_file (K := machine env e base none) none [] [] i a b p v
    rw [hb, if_neg (by simp)] at hrun
    cases hbase : base with
    | none =>
      rw [hbase] at h hrun he hnp
      obtain ⟨l', g1, g2⟩ := h.to
      rw [g2]
      exact .of hnp (t_stay (er := []) hd hi hrun rfl (t_path hd hi _ _ _ _ (by rfl) g1))
    | some bs =>
      rw [hbase] at h hrun he hnp
      have he' : stateErrors (machine env e (some bs) none) (reportOf env) none [] ⟨.file, i, [], a, b, p, v⟩ = [] := by
        rw [err_file]; simp
      dsimp only at h hrun
      by_cases hf : bs.scheme = u!"file"
      · rw [if_pos hf] at h hrun
        obtain ⟨l', g1, g2⟩ := h.to
        rw [g2, path_nil hd hi g1]
        exact .of hnp (t_end hd hi hrun he')
      · rw [if_neg hf] at h hrun
        obtain ⟨l', g1, g2⟩ := h.to
        rw [g2]
        exact .of hnp (t_stay (er := []) hd hi hrun he' (t_path hd hi _ _ _ _ (by rfl) g1))
  | cons c cs =>
    dsimp only at h
    have hslash : SlashCP c → ∃ x a, s.take (i + 1) = x ++ [a] ∧ FileLead base s x ∧ SlashCP a :=
      fun hc => ⟨s.take i, c, take_next hd, hlead, hc⟩
    have hrun := hrun
    rw [List.head?_cons, List.tail_cons] at hrun he
    by_cases h1 : c = c!"/"
    · rw [if_pos h1] at h
      rw [if_pos (by simp [h1])] at hrun he
      obtain ⟨l', g1, g2⟩ := h.to
      rw [g2]
      exact (t_fileSlash (drop_next hd) (drop_lt hd) (hslash (.inl h1)) a b p (v := { v with scheme := u!"file", host := some (.str []) }) (by rfl) g1).map (er := []) (fun l0 h0 => t_adv hd hrun he h0)
    · rw [if_neg h1] at h
      rw [if_neg (by simp [h1])] at he
      by_cases h2 : c = c!"\\"
      · rw [if_pos h2] at h
        rw [if_pos (by simp [h2])] at hrun he
        obtain ⟨l', g1, g2⟩ := h.to
        rw [g2]
        exact (t_fileSlash (drop_next hd) (drop_lt hd) (hslash (.inr h2)) a b p (v := { v with scheme := u!"file", host := some (.str []) }) (by rfl) g1).map (fun l0 h0 => t_adv hd hrun he h0)
      · rw [if_neg h2] at h
        rw [if_neg (by simp [h2])] at he
        rw [if_neg (by simp [h1, h2])] at hrun
        refine .of (hnp (by simp [h1, h2])) ?_
        cases hbase : base with
        | none =>
          rw [hbase] at h hrun he
          obtain ⟨l', g1, g2⟩ := h.to
          rw [g2]
          exact t_stay (er := []) hd hi hrun he (t_path hd hi _ _ _ _ (by rfl) g1)
        | some bs =>
          rw [hbase] at h hrun he
          dsimp only at h hrun he
          rw [startsWithDrive_eq] at hrun he
          by_cases hf : bs.scheme = u!"file"
          · rw [if_pos hf] at h hrun
            by_cases h3 : c = c!"?"
            · rw [if_pos h3] at h hrun
              rw [if_neg (by simp [h3])] at he
              obtain ⟨l', g1, g2⟩ := h.to
              rw [g2]
              exact t_adv (er := []) hd hrun he (t_query (drop_next hd) (drop_lt hd) _ _ _ _ g1)
            · rw [if_neg h3] at h hrun
              by_cases h4 : c = c!"#"
              · rw [if_pos h4] at h hrun
                rw [if_neg (by simp [h4])] at he
                obtain ⟨l', g1, g2⟩ := h.to
                rw [g2]
                exact t_adv (er := []) hd hrun he (t_fragment (drop_next hd) (drop_lt hd) _ _ _ _ g1)
              · rw [if_neg h4] at h hrun
                by_cases h5 : startsWithWindowsDriveLetter (c :: cs) = true
                · rw [if_pos h5] at hrun
                  rw [if_pos (by simp [hf, h3, h4, h5])] at he
                  rw [if_neg (by simp [h5])] at h
                  obtain ⟨l', g1, g2⟩ := h.to
                  rw [g2]
                  exact t_stay hd hi hrun he (t_path hd hi _ _ _ _ (by rfl) g1)
                · rw [if_neg h5] at hrun
                  rw [if_neg (by simp [h5])] at he
                  rw [if_pos (by simp [h5])] at h
                  split at h
                  · rename_i w hw
                    obtain ⟨l', g1, g2⟩ := h.to
                    rw [g2]
                    refine t_stay (er := []) hd hi hrun he (t_path hd hi _ _ _ _ ?_ g1)
                    rw [shortenRec_scheme hw, shorten_scheme]
                  · obtain ⟨g1, _⟩ := h.fail; cases g1
          · rw [if_neg hf] at h hrun
            rw [if_neg (by simp [hf])] at he
            obtain ⟨l', g1, g2⟩ := h.to
            rw [g2]
            exact t_stay (er := []) hd hi hrun he (t_path hd hi _ _ _ _ (by rfl) g1)

/-! ### no scheme -/

theorem t_noScheme (hdig : env.maxStrDigits = 0 ∨ s.length ≤ env.maxStrDigits) (hns : ¬ FileScheme s) {u v : Rec} {l : List VErr}
    (h : Emits env e s base .noScheme 0 u l) :
    Rep' env e base s ⟨.noScheme, ((0 : Nat) : Int), [], false, false, false, v⟩ l := by
  have hd : s.drop 0 = s := rfl
  have hi : 0 ≤ s.length := Nat.zero_le _
  have h := h.step (by decide)
  change EmitsOut env e s base (parseNoScheme s 0 base u) l at h
  unfold parseNoScheme at h
  have hb : (machine env e base none).base = base := rfl
  have hrun := run_noScheme (K := machine env e base none) s.head? s.tail [] ((0 : Nat) : Int) false false false v
  rw [hb] at hrun
  cases hbase : base with
  | none =>
    rw [hbase] at h hrun
    obtain ⟨_, g2⟩ := h.fail
    rw [g2]
    exact .of (noPipe_noScheme hns (by rintro ⟨r, hr, -⟩; cases hr)) (t_fail hd hrun rfl)
  | some bs =>
    have he : stateErrors (machine env e (some bs) none) (reportOf env) s.head? s.tail
        ⟨.noScheme, ((0 : Nat) : Int), [], false, false, false, v⟩ =
        if (Spec.isOpaque bs && s.head? != some c!"#") = true then [.missingSchemeNonRelativeURL] else [] := rfl
    rw [hbase] at h hrun
    dsimp only at h hrun
    rw [isOpaque_eq, show (s.head? != some 35) = !(s.head? == some 35) from rfl] at hrun he
    rw [hd] at h
    by_cases h1 : (bs.hasOpaquePath && !(s.head? == some 35)) = true
    · rw [if_pos h1] at h hrun he
      obtain ⟨_, g2⟩ := h.fail
      rw [g2]
      have ho : bs.hasOpaquePath = true := by
        simp only [Bool.and_eq_true] at h1
        exact h1.1
      exact .of (noPipe_noScheme hns (by
        rintro ⟨r, hr, -, h⟩
        cases hr
        rw [isOpaque_eq, ho] at h
        cases h)) (t_fail hd hrun he)
    · rw [if_neg h1] at h hrun he
      by_cases h2 : bs.hasOpaquePath = true
      · rw [if_pos h2] at h hrun
        obtain ⟨l', g1, g2⟩ := h.to
        rw [g2]
        rcases (show s = [] ∨ ∃ c cs, s = c :: cs by cases s <;> simp) with hs | ⟨c, cs, hs⟩
        · rw [hs] at h1; simp [h2] at h1
        · have hd' : s.drop 0 = c :: cs := hs
          have e1 : s.head? = some c := by rw [hs]; rfl
          have e2 : s.tail = cs := by rw [hs]; rfl
          rw [e1, e2] at hrun he
          exact .of (noPipe_noScheme hns (by
            rintro ⟨r, hr, -, h⟩
            cases hr
            rw [isOpaque_eq, h2] at h
            cases h)) (t_adv (er := []) hd' hrun he (t_fragment (drop_next hd') (drop_lt hd') _ _ _ _ g1))
      · rw [if_neg h2] at h hrun
        by_cases h3 : bs.scheme ≠ u!"file"
        · rw [if_pos h3] at h hrun
          obtain ⟨l', g1, g2⟩ := h.to
          rw [g2]
          exact .of (noPipe_noScheme hns (by
            rintro ⟨r, hr, h, -⟩
            cases hr
            exact h3 h)) (t_stay (er := []) hd hi hrun he (t_relative hdig hd hi _ g1))
        · rw [if_neg h3] at h hrun
          obtain ⟨l', g1, g2⟩ := h.to
          rw [g2]
          exact (t_file hd hi (.inl ⟨rfl, ⟨bs, rfl, Classical.not_not.1 h3, by rw [isOpaque_eq]; simpa using h2⟩, hns⟩) _ _ _ g1).map (er := []) (fun l0 h0 => t_stay hd hi hrun he h0)

/-! ### scheme -/

theorem err_scheme (c : Option Nat) (r buf : Str) (i : Int) (a b p : Bool) (v : Rec) :
    stateErrors (machine env e base none) R c r ⟨.scheme, i, buf, a, b, p, v⟩ =
      if c = some c!":" ∧ buf = u!"file" ∧ r.take 2 ≠ u!"//" then [.specialSchemeMissingFollowingSolidus] else [] := by
  simp [stateErrors, machine]

/-- a text that is not a scheme -/
theorem t_bad (hdig : env.maxStrDigits = 0 ∨ s.length ≤ env.maxStrDigits) (hns : ¬ FileScheme s) {r buf : Str} {i : Nat} (hd : s.drop i = r) {u v w : Rec}
    {l : List VErr} {st : Spec.State} (hrun : runState (machine env e base none) r.head? r.tail ⟨st, i, buf, false, false, false, v⟩ =
      .go ⟨.noScheme, -1, [], false, false, false, w⟩)
    (he : stateErrors (machine env e base none) (reportOf env) r.head? r.tail ⟨st, i, buf, false, false, false, v⟩ = [])
    (h : Emits env e s base .noScheme 0 u l) : Rep' env e base s ⟨st, i, buf, false, false, false, v⟩ l := by
  refine (t_noScheme hdig hns (v := w) h).map (er := []) (fun l0 h0 => ?_)
  have h1 : codePoint s ((i : Nat) : Int) = r.head? := by rw [codePoint_drop, hd]
  have h2 : Spec.remaining s ((i : Nat) : Int) = r.tail := by rw [remaining_drop, hd]
  have := Reports.next (K := machine env e base none) (input := s) (k := ⟨st, i, buf, false, false, false, v⟩)
    (k' := ⟨.noScheme, -1, [], false, false, false, w⟩) (report := reportOf env) (l := l0)
    (by dsimp only; rw [h1, h2]; exact hrun) (by show (-1 : Int) ≠ s.length; omega)
    (by have e0 : (-1 : Int) + 1 = ((0 : Nat) : Int) := rfl; dsimp only; rw [e0]; exact h0)
  dsimp only at this
  rw [h1, h2, he] at this
  exact this

/-- what `_parse_scheme` does behind a scheme -/
def afterScheme (base : Option Rec) (s buffer : Str) (index : Nat) (url : Rec) : Out :=
  let url := { url with scheme := buffer }
  let rest := s.drop index
  if url.scheme = u!"file" then
    .to .file index url (if rest.take 2 = u!"//" then [] else [.ev .specialSchemeMissingFollowingSolidus])
  else if url.isSpecial then
    if (match base with | some b => b.scheme == url.scheme | none => false) then .to .specialRelativeOrAuthority index url
    else .to .specialAuthoritySlashes index url
  else if rest.head? = some c!"/" then .to .pathOrAuthority (index + 1) url
  else .to .opaquePath index { url with path := .opaque [] }

theorem t_schemeDone (hdig : env.maxStrDigits = 0 ∨ s.length ≤ env.maxStrDigits) {r buf : Str} {i : Nat} (hd : s.drop i = 58 :: r)
    (hbuf : buf = Spec.toLower (s.take i)) (hall : ∀ c ∈ s.take i, isSchemeChar c = true) {u v : Rec} {l : List VErr}
    (h : EmitsOut env e s base (afterScheme base s buf (i + 1) u) l) :
    Rep' env e base s ⟨.scheme, i, buf, false, false, false, v⟩ l := by
  have hrun := run_scheme (K := machine env e base none) (some 58) r buf i false false false v
  dsimp only at hrun
  have hb : (machine env e base none).base = base := rfl
  rw [if_neg (by decide), if_pos rfl, ov_isSome, hb, if_neg (by simp)] at hrun
  have he := err_scheme (env := env) (e := e) (base := base) (R := reportOf env) (some 58) r buf i false false false v
  have hd1 := drop_next hd
  have hi1 := drop_lt hd
  unfold afterScheme at h
  dsimp only at h
  rw [hd1] at h
  by_cases h2 : buf = u!"file"
  · rw [if_pos h2] at hrun h
    obtain ⟨l', g1, g2⟩ := h.to
    have hlead : FileLead base s (s.take (i + 1)) := by
      right
      rw [take_next hd]
      unfold Spec.toLower at hbuf ⊢
      rw [List.map_append, ← hbuf, h2]
      rfl
    have hel : stateErrors (machine env e base none) (reportOf env) (some 58) r ⟨.scheme, i, buf, false, false, false, v⟩ =
        types (if r.take 2 = u!"//" then [] else [.ev .specialSchemeMissingFollowingSolidus]) := by
      rw [he]
      by_cases h3 : r.take 2 = u!"//"
      · rw [if_pos h3, if_neg (by simp [h3])]; rfl
      · rw [if_neg h3, if_pos ⟨rfl, h2, h3⟩]; rfl
    rw [g2]
    exact (t_file hd1 hi1 hlead _ _ _ g1).map (fun l0 h0 => t_adv hd hrun hel h0)
  · rw [if_neg h2] at hrun h
    rw [if_neg (fun hx => h2 hx.2.1)] at he
    rw [isSpecial_eq] at hrun
    have hs : s = s.take i ++ 58 :: r := by rw [← hd]; exact (List.take_append_drop i s).symm
    have hnp : ¬ Spec.PipeDrive base s := by
      intro hp
      have hf : ¬ FileScheme s := fun hf => h2 (hbuf.trans (fileScheme_split hs hall (by intro c hc; cases hc; decide) hf).2)
      obtain ⟨x, a', b', c', y, hs', ⟨rfl, -⟩ | hx, ha', -⟩ := hp
      · have hh : (s.take i ++ 58 :: r).head? = some a' := by rw [← hs, hs']; rfl
        cases htk : s.take i with
        | nil =>
          rw [htk] at hh
          cases hh
          exact absurd ha' (by decide)
        | cons c t =>
          rw [htk] at hh
          cases hh
          have := hall a' (by rw [htk]; simp)
          rcases ha' with rfl | rfl <;> exact absurd this (by decide)
      · exact hf ⟨x, _, hs', hx⟩
    refine .of hnp ?_
    by_cases h3 : isSpecialScheme buf = true
    · rw [if_pos h3] at hrun
      rw [if_pos (by exact h3)] at h
      cases hbase : base with
      | none =>
        rw [hbase] at h hrun he
        dsimp only at h hrun
        rw [if_neg (by simp)] at h
        obtain ⟨l', g1, g2⟩ := h.to
        rw [g2]
        exact t_adv (er := []) hd hrun he (t_authoritySlashes hdig hd1 hi1 _ (by rfl) g1)
      | some bs =>
        rw [hbase] at h hrun he
        dsimp only at h hrun
        by_cases h4 : bs.scheme = buf
        · rw [if_pos h4] at hrun
          rw [if_pos (by simpa using h4)] at h
          obtain ⟨l', g1, g2⟩ := h.to
          rw [g2]
          exact t_adv (er := []) hd hrun he (t_relativeOrAuthority hdig hd1 hi1 _ (by rfl) g1)
        · rw [if_neg h4] at hrun
          rw [if_neg (by simpa using h4)] at h
          obtain ⟨l', g1, g2⟩ := h.to
          rw [g2]
          exact t_adv (er := []) hd hrun he (t_authoritySlashes hdig hd1 hi1 _ (by rfl) g1)
    · rw [if_neg h3] at hrun
      rw [if_neg (by exact h3)] at h
      by_cases h4 : r.head? = some 47
      · rw [if_pos h4] at hrun h
        obtain ⟨l', g1, g2⟩ := h.to
        rw [g2]
        cases r with
        | nil => cases h4
        | cons x r => exact t_skip (er := []) hd hrun he (t_pathOrAuthority hdig (drop_next hd1) (drop_lt hd1) _ (by rfl) g1)
      · rw [if_neg h4] at hrun h
        obtain ⟨l', g1, g2⟩ := h.to
        rw [g2]
        exact t_adv (er := []) hd hrun he (t_opaque hd1 hi1 _ _ _ _ g1)

theorem t_scheme_loop (hdig : env.maxStrDigits = 0 ∨ s.length ≤ env.maxStrDigits) (rest : Str) :
    ∀ (i : Nat) (hd : s.drop i = rest) (hi : i ≤ s.length) (mbuf : Str) (hbuf : mbuf = s.take i)
    (hall : ∀ c ∈ mbuf, isSchemeChar c = true) (u v : Rec) (l : List VErr)
    (h : EmitsOut env e s base (match schemeScan rest i mbuf with
      | none => .to .noScheme 0 u
      | some (buffer, index) => afterScheme base s (lower buffer) index u) l),
    Rep' env e base s ⟨.scheme, i, Spec.toLower mbuf, false, false, false, v⟩ l := by
  induction rest with
  | nil =>
    intro i hd hi mbuf hbuf hall u v l h
    obtain ⟨l', g1, g2⟩ := h.to
    rw [g2]
    have hrun := run_scheme (K := machine env e base none) none [] (Spec.toLower mbuf) i false false false v
    have hns : ¬ FileScheme s := fun hf => by
      have := (fileScheme_split (m := mbuf) (r := []) (by rw [hbuf, ← hd]; exact (List.take_append_drop i s).symm) hall
        (by intro c hc; cases hc) hf).1
      cases this
    exact t_bad (r := []) hdig hns hd hrun (by rw [err_scheme]; exact if_neg (by simp)) g1
  | cons c cs ih =>
    intro i hd hi mbuf hbuf hall u v l h
    have hrun := run_scheme (K := machine env e base none) (some c) cs (Spec.toLower mbuf) i false false false v
    have he := err_scheme (env := env) (e := e) (base := base) (R := reportOf env) (some c) cs (Spec.toLower mbuf) i false false false v
    dsimp only at hrun
    unfold schemeScan at h
    by_cases hc : isSchemeChar c = true
    · rw [if_pos ((schemeChar_eq c).2 hc)] at hrun
      rw [if_pos hc] at h
      have hc58 : c ≠ 58 := by rintro rfl; revert hc; decide
      rw [if_neg (by simp [hc58])] at he
      have e1 : Spec.toLower mbuf ++ Spec.toLower [c] = Spec.toLower (mbuf ++ [c]) := by
        unfold Spec.toLower; rw [List.map_append]
      rw [e1] at hrun
      exact (ih (i + 1) (drop_next hd) (drop_lt hd) (mbuf ++ [c]) (by rw [take_next hd, hbuf]) (by
        intro z hz
        rcases List.mem_append.1 hz with hz | hz
        · exact hall z hz
        · cases List.mem_singleton.1 hz
          exact hc) u v l h).map (er := [])
        (fun l0 h0 => t_adv hd hrun he h0)
    · rw [if_neg (fun x => hc ((schemeChar_eq c).1 x))] at hrun
      rw [if_neg hc] at h
      by_cases h1 : c = 58
      · rw [if_pos h1] at h
        dsimp only at h
        rw [← toLower_eq_lower] at h
        exact t_schemeDone hdig (h1 ▸ hd) (by rw [hbuf]) (by rw [← hbuf]; exact hall) h
      · rw [if_neg h1] at h hrun
        rw [if_neg (by simp [h1])] at he
        obtain ⟨l', g1, g2⟩ := h.to
        rw [g2]
        have hns : ¬ FileScheme s := fun hf => by
          have := (fileScheme_split (m := mbuf) (r := c :: cs) (by rw [hbuf, ← hd]; exact (List.take_append_drop i s).symm) hall
            (by intro z hz; cases hz; simpa using hc) hf).1
          cases this
          exact h1 rfl
        exact t_bad (r := c :: cs) hdig hns hd hrun he g1

theorem parseScheme_cons {c : Nat} {cs : Str} (hd : s.drop 0 = c :: cs) (u : Rec) :
    parseScheme s 0 base u none = if (!isAlpha c) = true then .to .noScheme 0 u
      else
        match schemeScan cs 1 [c] with
        | none => .to .noScheme 0 u
        | some (buffer, index) => afterScheme base s (lower buffer) index u := by
  unfold parseScheme
  rw [hd]
  rfl

theorem t_start (hdig : env.maxStrDigits = 0 ∨ s.length ≤ env.maxStrDigits) {u v : Rec} {l : List VErr}
    (h : Emits env e s base .schemeStart 0 u l) : Rep' env e base s (.start .schemeStart v) l := by
  show Rep' env e base s ⟨.schemeStart, ((0 : Nat) : Int), [], false, false, false, v⟩ l
  have h := h.step (by decide)
  change EmitsOut env e s base (parseScheme s 0 base u none) l at h
  have hd : s.drop 0 = s := rfl
  have hi : 0 ≤ s.length := Nat.zero_le _
  have hrun := run_schemeStart (K := machine env e base none) s.head? s.tail [] ((0 : Nat) : Int) false false false v
  have he : stateErrors (machine env e base none) (reportOf env) s.head? s.tail
    ⟨.schemeStart, ((0 : Nat) : Int), [], false, false, false, v⟩ = [] := rfl
  have hbad : runState (machine env e base none) s.head? s.tail ⟨.schemeStart, ((0 : Nat) : Int), [], false, false, false, v⟩ =
        .go ⟨.noScheme, ((0 : Nat) : Int) - 1, [], false, false, false, v⟩ →
      EmitsOut env e s base (.to .noScheme 0 u) l → ¬ FileScheme s →
      Rep' env e base s ⟨.schemeStart, ((0 : Nat) : Int), [], false, false, false, v⟩ l := by
    intro hrun h hns
    obtain ⟨l', g1, g2⟩ := h.to
    rw [g2]
    exact (t_noScheme hdig hns g1).map (er := []) (fun l0 h0 => t_stay hd hi hrun he h0)
  rcases (show s = [] ∨ ∃ c cs, s = c :: cs by cases s <;> simp) with hs | ⟨c, cs, hs⟩
  · have e1 : s.head? = none := by rw [hs]; rfl
    rw [e1] at hrun hbad
    have h : EmitsOut env e s base (.to .noScheme 0 u) l := by rw [hs] at h ⊢; exact h
    refine hbad hrun h ?_
    rintro ⟨x, t, hx, hx'⟩
    rw [hs] at hx
    cases x with
    | nil => cases hx'
    | cons c x => cases hx
  · have e1 : s.head? = some c := by rw [hs]; rfl
    have e2 : s.tail = cs := by rw [hs]; rfl
    rw [e1, e2] at hrun hbad he
    have hd0 : s.drop 0 = c :: cs := hs
    rw [parseScheme_cons hd0] at h
    dsimp only at hrun
    by_cases hl : Letter c
    · rw [if_pos hl] at hrun
      have ha : isAlpha c = true := isAlpha_iff.2 hl
      rw [if_neg (by simp [ha])] at h
      exact (t_scheme_loop hdig cs 1 (drop_next hd0) (drop_lt hd0) [c] (by rw [hs]; rfl) (by
        intro z hz
        cases List.mem_singleton.1 hz
        unfold isSchemeChar isAlnum
        rw [ha]
        rfl) u v l h).map (er := [])
        (fun l0 h0 => t_adv hd0 hrun he h0)
    · rw [if_neg hl] at hrun
      rw [if_pos (by simpa [← isAlpha_iff] using hl)] at h
      refine hbad hrun h ?_
      rintro ⟨x, t, hx, hx'⟩
      rw [hs] at hx
      cases x with
      | nil => cases hx'
      | cons c' x =>
        have hx : c :: cs = c' :: (x ++ t) := hx
        injection hx with hx _
        subst hx
        unfold Spec.toLower at hx'
        rw [List.map_cons] at hx'
        injection hx' with hx' _
        refine hl ?_
        unfold Letter
        split at hx' <;> omega

end

end Urlstd
