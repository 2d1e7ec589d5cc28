/-
Helper lemmas for C84: the positions in the descriptions.
-/
import Verif.Lemmas.Notes
import Verif.Lemmas.Machine1
import Verif.Lemmas.Machine5

namespace Urlstd

/-- the position, if there is one -/
def Note.pos : Note → Option Nat
  | .at _ _ _ p => some p
  | _ => none

/-- Descriptions, newest first, that point at what they are about, in the order of the text and between `i` and `j`. -/
def Fine (s : Str) (i j : Nat) (ns : List Note) : Prop :=
  (∀ k part t p, Note.at k part t p ∈ ns → t = s ∧ i ≤ p ∧ p ≤ j ∧ Spec.Points s p part k) ∧
  (ns.filterMap Note.pos).Pairwise (fun a b => b ≤ a)

theorem Fine.silent {s : Str} {i j : Nat} {ns : List Note} (h : ∀ n ∈ ns, n.pos = none) : Fine s i j ns := by
  refine ⟨fun k part t p hm => ?_, ?_⟩
  · cases h _ hm
  · rw [List.filterMap_eq_nil_iff.2 h]
    exact .nil

theorem Fine.nil {s : Str} {i j : Nat} : Fine s i j [] := .silent (by simp)

theorem Fine.one {s : Str} {i j p : Nat} {k : VErr} {part : Option Str} (h1 : i ≤ p) (h2 : p ≤ j) (h : Spec.Points s p part k) :
    Fine s i j [.at k part s p] := by
  refine ⟨fun k' part' t' p' hm => ?_, ?_⟩
  · rw [List.mem_singleton] at hm
    cases hm
    exact ⟨rfl, h1, h2, h⟩
  · simp [Note.pos]

theorem mem_pos {ns : List Note} {p : Nat} (h : p ∈ ns.filterMap Note.pos) : ∃ k part t, Note.at k part t p ∈ ns := by
  obtain ⟨n, hn, hp⟩ := List.mem_filterMap.1 h
  cases n with
  | «at» k part t q =>
    cases hp
    exact ⟨k, part, t, hn⟩
  | plain k t => cases hp
  | host e => cases hp

theorem Fine.append {s : Str} {i j j' k : Nat} {a b : List Note} (ha : Fine s j' k a) (hb : Fine s i j b) (h1 : i ≤ j') (h2 : j ≤ j')
    (h3 : j ≤ k) : Fine s i k (a ++ b) := by
  refine ⟨fun kd part t p hm => ?_, ?_⟩
  · rcases List.mem_append.1 hm with h | h
    · obtain ⟨e1, e2, e3, e4⟩ := ha.1 _ _ _ _ h
      exact ⟨e1, by omega, e3, e4⟩
    · obtain ⟨e1, e2, e3, e4⟩ := hb.1 _ _ _ _ h
      exact ⟨e1, e2, by omega, e4⟩
  · rw [List.filterMap_append, List.pairwise_append]
    refine ⟨ha.2, hb.2, fun p hp q hq => ?_⟩
    obtain ⟨_, _, _, h⟩ := mem_pos hp
    obtain ⟨_, _, _, h'⟩ := mem_pos hq
    have := (ha.1 _ _ _ _ h).2.1
    have := (hb.1 _ _ _ _ h').2.2.1
    omega

theorem Fine.mono {s : Str} {i i' j j' : Nat} {a : List Note} (h : Fine s i j a) (h1 : i' ≤ i) (h2 : j ≤ j') : Fine s i' j' a :=
  ⟨fun k part t p hm => by obtain ⟨e1, e2, e3, e4⟩ := h.1 _ _ _ _ hm; exact ⟨e1, by omega, by omega, e4⟩, h.2⟩

/-- ":" is in front of position `i` -/
def ColonAt (s : Str) (i : Nat) : Prop := ∃ a, s = a ++ u!":" ++ s.drop i ∧ i = a.length + 1

/-- the states that are entered behind ":" only -/
def Behind (st : PState) : Prop := st = .specialRelativeOrAuthority ∨ st = .specialAuthoritySlashes

/-- what is proved of every state -/
def StepFine (s : Str) (i : Nat) (ns : List Note) (o : Out) : Prop :=
  match o.res with
  | .ok (st, j) => i ≤ j ∧ Fine s i j ns ∧ (Behind st → ColonAt s j)
  | .error _ => ∃ j, Fine s i j ns

theorem StepFine.to {s : Str} {i j : Nat} {ns : List Note} {st : PState} {url : Rec} {log : Log} (h : i ≤ j) (hf : Fine s i j ns)
    (hst : ¬ Behind st) : StepFine s i ns (.to st j url log) := ⟨h, hf, fun h => absurd h hst⟩

theorem StepFine.fail {s : Str} {i : Nat} (j : Nat) {ns : List Note} {e : Err} {url : Rec} {log : Log} (hf : Fine s i j ns) :
    StepFine s i ns (.fail e url log) := ⟨j, hf⟩

theorem drop_cons {s : Str} {i c : Nat} {cs : Str} (h : s.drop i = c :: cs) : s[i]? = some c ∧ s.drop (i + 1) = cs := by
  constructor
  · rw [← List.head?_drop, h]
    rfl
  · rw [← List.tail_drop, h]
    rfl

theorem fine_unit {s : Str} {i c : Nat} {cs : Str} (h : s.drop i = c :: cs) : Fine s i i (unitNote s i c cs) := by
  obtain ⟨h1, h2⟩ := drop_cons h
  have hu := unitErrors_eq c cs
  unfold unitNote
  unfold unitLog Spec.unitErrors at hu
  dsimp only at hu
  split
  · rename_i h3
    rw [if_pos h3] at hu
    refine .one (Nat.le_refl _) (Nat.le_refl _) (.inl ⟨c, h1, ?_⟩)
    simp only [Bool.and_eq_true, bne_iff_ne, ne_eq] at h3
    by_cases h4 : ¬ Spec.URLCodePoint c ∧ c ≠ c!"%"
    · exact ⟨h4.1, h4.2, rfl⟩
    · rw [if_neg h4, if_neg (fun h5 => h3.2 h5.1)] at hu
      simp [types] at hu
  · rename_i h3
    rw [if_neg h3] at hu
    split
    · rename_i h4
      rw [if_pos h4] at hu
      simp only [Bool.and_eq_true, beq_iff_eq] at h4
      refine .one (Nat.le_refl _) (Nat.le_refl _) (.inr ⟨by rw [h1, h4.1], ?_, rfl⟩)
      rw [h2]
      cases h5 : Spec.startsWithTwoHex cs with
      | false => rfl
      | true =>
        rw [if_neg (fun h6 => h6.2 h4.1), if_neg (fun h6 => by rw [h5] at h6; cases h6.2)] at hu
        simp [types] at hu
    · exact .nil

theorem fine_fragment {s : Str} : ∀ {r : Str} {i : Nat}, s.drop i = r → Fine s i (i + r.length) (fragmentNotes s r i)
  | [], _, _ => .nil
  | c :: cs, i, h => by
    refine .append (j' := i + 1) (j := i) ?_ (fine_unit h) (by omega) (by omega) (by omega)
    have := fine_fragment (drop_cons h).2
    rw [List.length_cons]
    exact this.mono (Nat.le_refl _) (by omega)

theorem fine_opaquePath {s : Str} : ∀ {r : Str} {i : Nat} (url : Rec) (log : Log), s.drop i = r →
    StepFine s i (opaqueNotes s r i) (opaqueLoop r i url log)
  | [], _, _, _, _ => .to (Nat.le_refl _) .nil (by rintro (h | h) <;> cases h)
  | c :: cs, i, url, log, h => by
    unfold opaqueNotes opaqueLoop
    split
    · exact .to (by omega) .nil (by rintro (h | h) <;> cases h)
    · split
      · exact .to (by omega) .nil (by rintro (h | h) <;> cases h)
      · have := fine_opaquePath { url with path := url.path.addText (utf8PercentEncode [c] safeC0) } (unitLog c cs ++ log) (drop_cons h).2
        unfold StepFine at this ⊢
        split at this
        · exact ⟨by omega, this.2.1.append (fine_unit h) (by omega) (by omega) (by omega), this.2.2⟩
        · obtain ⟨j, hj⟩ := this
          exact ⟨max j i, (hj.mono (Nat.le_refl _) (Nat.le_max_left _ _)).append (fine_unit h) (by omega) (by omega) (Nat.le_max_right _ _)⟩

theorem fine_path {s sch : Str} {ov : Bool} : ∀ {r : Str} {i : Nat} (b : Str) (p : List Str) (log : Log), s.drop i = r →
    i ≤ (pathLoop sch ov r i b p log).2.2.1 ∧ ¬ Behind (pathLoop sch ov r i b p log).2.1 ∧
    Fine s i (pathLoop sch ov r i b p log).2.2.1 (pathNotes s (isSpecialScheme sch) ov r i)
  | [], i, _, _, _, _ => ⟨Nat.le_refl _, (by rintro (h | h) <;> cases h), .nil⟩
  | c :: cs, i, b, p, log, h => by
    unfold pathNotes pathLoop
    split
    · obtain ⟨h1, h2, h3⟩ := fine_path (sch := sch) (ov := ov) [] (addSegment sch p b true) log (drop_cons h).2
      exact ⟨by omega, h2, h3.mono (by omega) (Nat.le_refl _)⟩
    · split
      · rename_i hc
        simp only [Bool.and_eq_true, decide_eq_true_eq] at hc
        obtain ⟨h1, h2, h3⟩ := fine_path (sch := sch) (ov := ov) [] (addSegment sch p b true) (.ev .invalidReverseSolidus :: log) (drop_cons h).2
        exact ⟨by omega, h2, h3.append (.one (Nat.le_refl _) (Nat.le_refl _) ⟨rfl, by rw [(drop_cons h).1, hc.2]⟩) (by omega) (by omega) (by omega)⟩
      · split
        · exact ⟨by dsimp only; omega, (by rintro (h | h) <;> cases h), .nil⟩
        · split
          · exact ⟨by dsimp only; omega, (by rintro (h | h) <;> cases h), .nil⟩
          · obtain ⟨h1, h2, h3⟩ := fine_path (sch := sch) (ov := ov) (b ++ [c]) p (unitLog c cs ++ log) (drop_cons h).2
            exact ⟨by omega, h2, h3.append (fine_unit h) (by omega) (by omega) (by omega)⟩

theorem fine_query {s : Str} {ov : Bool} : ∀ {r : Str} {i : Nat} (b : Str) (log : Log), s.drop i = r →
    i ≤ (queryLoop ov r i b log).2.2.1 ∧ Fine s i (queryLoop ov r i b log).2.2.1 (queryNotes s ov r i)
  | [], i, _, _, _ => ⟨Nat.le_refl _, .nil⟩
  | c :: cs, i, b, log, h => by
    unfold queryNotes queryLoop
    split
    · exact ⟨by dsimp only; omega, .nil⟩
    · obtain ⟨h1, h3⟩ := fine_query (ov := ov) (b ++ [c]) (unitLog c cs ++ log) (drop_cons h).2
      exact ⟨by omega, h3.append (fine_unit h) (by omega) (by omega) (by omega)⟩

theorem fine_ignore {s : Str} : ∀ {r : Str} {i : Nat} (log : Log), s.drop i = r →
    i ≤ (ignoreSlashes r i log).1 ∧ Fine s i (ignoreSlashes r i log).1 (ignoreNotes s r i)
  | [], i, _, _ => ⟨Nat.le_refl _, .nil⟩
  | c :: cs, i, log, h => by
    unfold ignoreNotes ignoreSlashes
    split
    · rename_i hc
      simp only [Bool.or_eq_true, decide_eq_true_eq] at hc
      obtain ⟨h1, h3⟩ := fine_ignore (.ev .specialSchemeMissingFollowingSolidus :: log) (drop_cons h).2
      exact ⟨by omega, h3.append (.one (Nat.le_refl _) (Nat.le_refl _) (.inr ⟨c, (drop_cons h).1, hc, rfl⟩)) (by omega) (by omega) (by omega)⟩
    · exact ⟨Nat.le_refl _, .nil⟩

theorem fine_authority {s : Str} {sp : Bool} : ∀ {r : Str} {i : Nat} (b : Str) (a p : Bool) (url : Rec) (log : Log), s.drop i = r →
    b.length ≤ i → StepFine s (i - b.length) (authorityNotes s sp r i b.isEmpty a) (authorityLoop sp r i b a p url log)
  | [], i, b, a, p, url, log, _, hb => fin i b a url log hb
  | c :: cs, i, b, a, p, url, log, h, hb => by
    unfold authorityLoop authorityNotes
    split
    · rename_i hc
      have := fine_authority (sp := sp) [] true (authorityAt b a p url).2 (authorityAt b a p url).1 (.ev .invalidCredentials :: log)
        (drop_cons h).2 (Nat.zero_le _)
      have hone : Fine s (i - b.length) i [.at .invalidCredentials none s i] :=
        .one (by omega) (Nat.le_refl _) ⟨rfl, by rw [(drop_cons h).1, hc]⟩
      unfold StepFine at this ⊢
      dsimp only [List.length_nil, List.isEmpty_nil] at this ⊢
      split at this
      · exact ⟨by omega, this.2.1.append hone (by omega) (by omega) (by omega), this.2.2⟩
      · obtain ⟨j, hj⟩ := this
        exact ⟨max j i, (hj.mono (Nat.le_refl _) (Nat.le_max_left _ _)).append hone (by omega) (by omega) (Nat.le_max_right _ _)⟩
    · split
      · exact fin i b a url log hb
      · have := fine_authority (sp := sp) (b ++ [c]) a p url log (drop_cons h).2 (by rw [List.length_append, List.length_singleton]; omega)
        have e1 : (b ++ [c]).isEmpty = false := by cases b <;> rfl
        have e2 : i + 1 - (b ++ [c]).length = i - b.length := by rw [List.length_append, List.length_singleton]; omega
        rw [e1, e2] at this
        exact this
where
  fin (i : Nat) (b : Str) (a : Bool) (url : Rec) (log : Log) (hb : b.length ≤ i) :
      StepFine s (i - b.length) (if a && b.isEmpty then [.plain .invalidCredentials s] else []) (authorityEnd (i + 1) b a url log) := by
    unfold authorityEnd
    split
    · exact .fail i (.silent (by simp [Note.pos]))
    · exact .to (by omega) .nil (by rintro (h | h) <;> cases h)

/-- the states that read on: the index does not go back, and where it leads -/
def Forward (i : Nat) (o : Out) : Prop :=
  match o.res with
  | .ok (st, j) => i ≤ j ∧ ¬ Behind st
  | .error _ => True

theorem Forward.mono {i i' : Nat} {o : Out} (h : Forward i o) (hi : i' ≤ i) : Forward i' o := by
  unfold Forward at h ⊢
  split at h
  · exact ⟨by omega, h.2⟩
  · trivial

theorem Forward.fine {s : Str} {i : Nat} {ns : List Note} {o : Out} (h : Forward i o) (hn : Fine s i i ns) : StepFine s i ns o := by
  unfold Forward at h
  unfold StepFine
  split at h
  · exact ⟨h.1, hn.mono (Nat.le_refl _) h.1, fun hb => absurd hb h.2⟩
  · exact ⟨i, hn⟩

theorem forward_to {i j : Nat} {st : PState} {url : Rec} {log : Log} (h : i ≤ j) (h1 : st ≠ .specialRelativeOrAuthority)
    (h2 : st ≠ .specialAuthoritySlashes) : Forward i (.to st j url log) := ⟨h, fun h => h.elim h1 h2⟩

theorem forward_fail {i : Nat} {e : Err} {url : Rec} {log : Log} : Forward i (.fail e url log) := trivial

theorem fine_file {s : Str} {i : Nat} {base : Option Rec} {url : Rec} : StepFine s i (fileNotes s i base) (parseFile s i base url) := by
  have nb : ∀ st, st ≠ .specialRelativeOrAuthority → st ≠ .specialAuthoritySlashes → ¬ Behind st := fun st h1 h2 h => h.elim h1 h2
  unfold fileNotes parseFile baseIsFile
  dsimp only
  cases h : s.drop i with
  | nil =>
    cases base with
    | none => exact .to (Nat.le_refl _) .nil (nb _ (by decide) (by decide))
    | some b =>
      dsimp only
      split <;> exact .to (Nat.le_refl _) .nil (nb _ (by decide) (by decide))
  | cons c cs =>
    dsimp only
    split
    · exact .to (by omega) .nil (nb _ (by decide) (by decide))
    · split
      · rename_i hc
        exact .to (by omega) (.one (Nat.le_refl _) (by omega) ⟨rfl, by rw [(drop_cons h).1, hc]⟩) (nb _ (by decide) (by decide))
      · have hfine : ∀ q : Bool, Fine s i i (if (q && startsWithWindowsDriveLetter (c :: cs)) = true then
            [Note.at .fileInvalidWindowsDriveLetter (some ((c :: cs).take 2)) s i] else []) := by
          intro q
          split
          · rename_i hd
            rw [Bool.and_eq_true] at hd
            exact .one (Nat.le_refl _) (Nat.le_refl _) ⟨by rw [startsWithDrive_eq, h]; exact hd.2, by rw [h]⟩
          · exact .nil
        refine Forward.fine ?_ (hfine _)
        cases base with
        | none => exact forward_to (Nat.le_refl _) (by decide) (by decide)
        | some b =>
          dsimp only
          repeat' split
          all_goals first
            | exact forward_fail
            | exact forward_to (by omega) (by decide) (by decide)

theorem fine_backslash {s : Str} {i : Nat} : Fine s i i (backslashNote s i) := by
  unfold backslashNote
  split
  · rename_i h
    exact .one (Nat.le_refl _) (Nat.le_refl _) ⟨rfl, by rw [List.head?_drop] at h; exact h⟩
  · exact .nil

theorem hosts_silent {env : Env} {b : Str} {f : Bool} : ∀ n ∈ (hostParse env b f).log.map Note.host, n.pos = none := by
  intro n hn
  obtain ⟨e, -, rfl⟩ := List.mem_map.1 hn
  rfl

theorem host_silent {env : Env} {s : Str} {ov : Option PState} {url : Rec} : ∀ (r b : Str) (ins : Bool),
    ∀ n ∈ hostNotes env s ov url r b ins, n.pos = none
  | [], b, _ => fin b
  | c :: cs, b, ins => by
    unfold hostNotes
    repeat' split
    all_goals first
      | exact fin b
      | exact hosts_silent
      | exact host_silent cs _ _
      | simp [Note.pos]
where
  fin (b : Str) : ∀ n ∈ hostNotes.finish env s ov url b, n.pos = none := by
    unfold hostNotes.finish
    repeat' split
    all_goals first
      | exact hosts_silent
      | simp [Note.pos]

theorem port_silent {env : Env} {s : Str} {ov sp : Bool} : ∀ (r b : Str), ∀ n ∈ portNotes env s ov sp r b, n.pos = none
  | [], b => fin b
  | c :: cs, b => by
    unfold portNotes
    repeat' split
    all_goals first
      | exact fin b
      | exact port_silent cs _
      | simp [Note.pos]
where
  fin (b : Str) : ∀ n ∈ portNotes.finish env s b, n.pos = none := by
    unfold portNotes.finish
    repeat' split
    all_goals simp [Note.pos]

theorem forward_host {env : Env} {ov : Option PState} {url : Rec} : ∀ (r : Str) (i : Nat) (b : Str) (ins : Bool),
    Forward i (hostLoop env ov r i b ins url)
  | [], i, b, _ => fin i b
  | c :: cs, i, b, ins => by
    unfold hostLoop
    repeat' split
    all_goals first
      | exact fin i b
      | exact (forward_host cs (i + 1) _ _).mono (by omega)
      | exact forward_fail
      | exact forward_to (by omega) (by decide) (by decide)
where
  fin (i : Nat) (b : Str) : Forward i (hostEnd env ov.isSome i b url) := by
    unfold hostEnd
    repeat' split
    all_goals first
      | exact forward_fail
      | exact forward_to (by omega) (by decide) (by decide)

theorem forward_port {env : Env} {ov : Bool} {url : Rec} : ∀ (r : Str) (i : Nat) (b : Str), Forward i (portLoop env ov r i b url)
  | [], i, b => fin i b
  | c :: cs, i, b => by
    unfold portLoop
    repeat' split
    all_goals first
      | exact fin i b
      | exact (forward_port cs (i + 1) _).mono (by omega)
      | exact forward_fail
where
  fin (i : Nat) (b : Str) : Forward i (portEnd env ov i b url) := by
    unfold portEnd
    dsimp only
    repeat' split
    all_goals first
      | exact forward_fail
      | exact forward_to (by omega) (by decide) (by decide)

theorem fine_fileHost {env : Env} {s : Str} {ov sp : Bool} {url : Rec} (hsp : sp = url.isSpecial) : ∀ (r : Str) (i : Nat) (b : Str),
    s.drop (i - b.length) = b ++ r → b.length ≤ i → StepFine s (i - b.length) (fileHostNotes env s ov sp r i b) (fileHostLoop env ov r i b url)
  | [], i, b, h, hb => fin [] i b h hb (by simp)
  | c :: cs, i, b, h, hb => by
    unfold fileHostNotes fileHostLoop
    split
    · rename_i hc
      refine fin (c :: cs) i b h hb ?_
      simpa [or_assoc] using hc
    · have := fine_fileHost (env := env) (ov := ov) hsp cs (i + 1) (b ++ [c])
        (by rw [List.length_append, List.length_singleton, show i + 1 - (b.length + 1) = i - b.length by omega, h]; simp)
        (by rw [List.length_append, List.length_singleton]; omega)
      rwa [show i + 1 - (b ++ [c]).length = i - b.length by rw [List.length_append, List.length_singleton]; omega] at this
where
  fin (r : Str) (i : Nat) (b : Str) (h : s.drop (i - b.length) = b ++ r) (hb : b.length ≤ i)
      (hr : ∀ c, r.head? = some c → c = c!"/" ∨ c = c!"\\" ∨ c = c!"?" ∨ c = c!"#") :
      StepFine s (i - b.length) (fileHostNotes.finish env s ov sp i b) (fileHostEnd env ov i b url) := by
    unfold fileHostNotes.finish fileHostEnd
    split
    · rename_i hd
      simp only [Bool.and_eq_true] at hd
      obtain ⟨x, y, rfl⟩ : ∃ x y, b = [x, y] := by
        match b, hd.2 with
        | [x, y], _ => exact ⟨x, y, rfl⟩
      refine .to (Nat.le_refl _) (.one (Nat.le_refl _) (Nat.le_refl _) ⟨?_, ?_⟩) (by rintro (h | h) <;> cases h)
      · rw [startsWithDrive_eq, h]
        unfold startsWithWindowsDriveLetter
        simp only [List.cons_append, List.nil_append, hd.2, Bool.true_and]
        cases r with
        | nil => rfl
        | cons c cs =>
          rcases hr c rfl with rfl | rfl | rfl | rfl <;> rfl
      · rw [h]
        rfl
    · split
      · exact .to (by omega) .nil (by split <;> (rintro (h | h) <;> cases h))
      · subst hsp
        split
        · rename_i h1
          exact .fail i (.silent hosts_silent)
        · exact .to (by omega) (.silent hosts_silent) (by split <;> (rintro (h | h) <;> cases h))

theorem scan_colon {s : Str} : ∀ {r : Str} {i : Nat} {b b' : Str} {j : Nat}, s.drop i = r → schemeScan r i b = some (b', j) →
    i ≤ j ∧ ColonAt s j
  | [], i, b, b', j, _, hs => by cases hs
  | c :: cs, i, b, b', j, h, hs => by
    unfold schemeScan at hs
    split at hs
    · obtain ⟨h1, h2⟩ := scan_colon (drop_cons h).2 hs
      exact ⟨by omega, h2⟩
    · split at hs
      · rename_i hc
        cases hs
        refine ⟨by omega, s.take i, ?_, ?_⟩
        · rw [(drop_cons h).2, List.append_assoc, ← hc]
          conv_lhs => rw [← List.take_append_drop i s, h]
          rfl
        · rw [List.length_take]
          have : i < s.length := by
            rcases Nat.lt_or_ge i s.length with h' | h'
            · exact h'
            · rw [List.drop_eq_nil_of_le h'] at h
              cases h
          omega
      · cases hs

theorem fine_solidus {s : Str} {i : Nat} (h : ColonAt s i) : Fine s i i (solidusNote s i) := by
  unfold solidusNote
  split
  · exact .nil
  · rename_i h2
    obtain ⟨a, h3, h4⟩ := h
    exact .one (Nat.le_refl _) (Nat.le_refl _) (.inl ⟨a, h3, h4, h2, rfl⟩)

theorem fine_scheme {s : Str} {i : Nat} {base : Option Rec} {url : Rec} {ov : Option PState} :
    StepFine s i (schemeNotes s i ov) (parseScheme s i base url ov) := by
  have hbad : Forward i (if ov.isNone = true then Out.to .noScheme i url else .fail .urlParse url) := by
    split
    · exact forward_to (Nat.le_refl _) (by decide) (by decide)
    · exact forward_fail
  unfold parseScheme schemeNotes
  dsimp only
  cases h : s.drop i with
  | nil => exact hbad.fine .nil
  | cons c cs =>
    dsimp only
    split
    · exact hbad.fine .nil
    · cases hs : schemeScan cs (i + 1) [c] with
      | none => exact hbad.fine .nil
      | some r =>
        obtain ⟨b, j⟩ := r
        dsimp only
        obtain ⟨h1, h2⟩ := scan_colon (drop_cons h).2 hs
        have hf : Fine s i j (if (ov.isNone && lower b == u!"file") = true then solidusNote s j else []) := by
          split
          · exact (fine_solidus h2).mono (by omega) (Nat.le_refl _)
          · exact .nil
        generalize (if (ov.isNone && lower b == u!"file") = true then solidusNote s j else []) = ns at hf ⊢
        have gen : ∀ st k u l, j ≤ k → (Behind st → k = j) → StepFine s i ns (Out.to st k u l) := by
          intro st k u l hk hb
          exact ⟨by omega, hf.mono (Nat.le_refl _) hk, fun h => by rw [hb h]; exact h2⟩
        cases ov with
        | some o =>
          rw [if_pos (show (some o : Option PState).isSome = true from rfl)]
          split <;> exact gen _ _ _ _ (by omega) (by intro _; rfl)
        | none =>
          rw [if_neg (show ¬ (none : Option PState).isSome = true by simp)]
          by_cases e1 : lower b = u!"file"
          · rw [if_pos e1]
            exact gen _ _ _ _ (by omega) (by intro _; rfl)
          rw [if_neg e1]
          by_cases e2 : Rec.isSpecial { url with scheme := lower b } = true
          · rw [if_pos e2]
            have gen2 : ∀ (q : Prop) [Decidable q] (x y : Out), StepFine s i ns x → StepFine s i ns y → StepFine s i ns (if q then x else y) := by
              intro q _ x y hx hy
              split
              · exact hx
              · exact hy
            exact gen2 _ _ _ (gen _ _ _ _ (Nat.le_refl _) (by intro _; rfl)) (gen _ _ _ _ (Nat.le_refl _) (by intro _; rfl))
          rw [if_neg e2]
          split
          · exact gen _ _ _ _ (by omega) (by rintro (h | h) <;> cases h)
          · exact gen _ _ _ _ (by omega) (by intro _; rfl)

theorem step_fine (env : Env) (e : Encoding) (s : Str) (base : Option Rec) (ov : Option PState) (st : PState) (i : Nat) (url : Rec)
    (hst : Behind st → ColonAt s i) :
    StepFine s i (stepNotes env s base ov st i url) (step env e s base ov st i url) := by
  cases st with
  | schemeStart => exact fine_scheme
  | noScheme =>
    show StepFine s i (noSchemeNotes s i base) (parseNoScheme s i base url)
    refine Forward.fine ?_ (.silent ?_)
    · unfold parseNoScheme
      dsimp only
      repeat' split
      all_goals first
        | exact forward_fail
        | exact forward_to (by omega) (by decide) (by decide)
    · unfold noSchemeNotes
      repeat' split
      all_goals simp [Note.pos]
  | specialRelativeOrAuthority =>
    show StepFine s i (solidusNote s i) (parseSpecialRelativeOrAuthority s i url)
    refine Forward.fine ?_ (fine_solidus (hst (.inl rfl)))
    unfold parseSpecialRelativeOrAuthority
    split <;> exact forward_to (by omega) (by decide) (by decide)
  | specialAuthoritySlashes =>
    show StepFine s i (solidusNote s i) (parseSpecialAuthoritySlashes s i url)
    refine Forward.fine ?_ (fine_solidus (hst (.inr rfl)))
    unfold parseSpecialAuthoritySlashes
    split <;> exact forward_to (by omega) (by decide) (by decide)
  | pathOrAuthority =>
    show StepFine s i [] (parsePathOrAuthority s i url)
    refine Forward.fine ?_ .nil
    unfold parsePathOrAuthority
    split <;> exact forward_to (by omega) (by decide) (by decide)
  | relative =>
    refine Forward.fine (o := parseRelative s i base url) ?_ ?_
    · unfold parseRelative
      dsimp only
      repeat' split
      all_goals first
        | exact forward_fail
        | exact forward_to (by omega) (by decide) (by decide)
    · unfold stepNotes
      dsimp only
      repeat' split
      all_goals first
        | exact .nil
        | exact fine_backslash
  | relativeSlash =>
    refine Forward.fine (o := parseRelativeSlash s i base url) ?_ ?_
    · unfold parseRelativeSlash
      dsimp only
      repeat' split
      all_goals first
        | exact forward_fail
        | exact forward_to (by omega) (by decide) (by decide)
    · unfold stepNotes
      dsimp only
      repeat' split
      all_goals first
        | exact .nil
        | exact fine_backslash
  | specialAuthorityIgnoreSlashes =>
    obtain ⟨h1, h2⟩ := fine_ignore (s := s) (i := i) [] rfl
    exact .to h1 h2 (by rintro (h | h) <;> cases h)
  | authority => exact fine_authority (s := s) (i := i) [] false false url [] rfl (Nat.zero_le _)
  | host => exact host
  | hostname => exact host
  | port => exact Forward.fine (forward_port _ _ _) (.silent (port_silent _ _))
  | file => exact fine_file
  | fileSlash =>
    refine Forward.fine (o := parseFileSlash s i base url) ?_ fine_backslash
    unfold parseFileSlash
    dsimp only
    repeat' split
    all_goals first
      | exact forward_fail
      | exact forward_to (by omega) (by decide) (by decide)
  | fileHost => exact fine_fileHost (s := s) rfl (s.drop i) i [] rfl (Nat.zero_le _)
  | pathStart =>
    refine Forward.fine (o := parsePathStart s i url ov) ?_ ?_
    · unfold parsePathStart
      dsimp only
      repeat' split
      all_goals first
        | exact forward_fail
        | exact forward_to (by omega) (by decide) (by decide)
    · unfold stepNotes
      dsimp only
      repeat' split
      all_goals first
        | exact .nil
        | exact fine_backslash
  | path =>
    show StepFine s i (if url.hasOpaquePath then [] else pathNotes s url.isSpecial ov.isSome (s.drop i) i) (parsePath s i url ov)
    unfold parsePath
    cases h : url.path with
    | «opaque» t =>
      have : url.hasOpaquePath = true := by unfold Rec.hasOpaquePath; rw [h]
      rw [if_pos this]
      exact .fail i .nil
    | list p =>
      have : url.hasOpaquePath = false := by unfold Rec.hasOpaquePath; rw [h]
      rw [if_neg (by rw [this]; exact Bool.false_ne_true)]
      obtain ⟨h1, h2, h3⟩ := fine_path (s := s) (sch := url.scheme) (ov := ov.isSome) (i := i) [] p [] rfl
      exact .to h1 h3 h2
  | opaquePath => exact fine_opaquePath url [] rfl
  | query =>
    obtain ⟨h1, h2⟩ := fine_query (s := s) (ov := ov.isSome) (i := i) [] [] rfl
    show StepFine s i (queryNotes s ov.isSome (s.drop i) i) (parseQuery e s i url ov)
    unfold parseQuery
    dsimp only
    split
    · exact .to h1 h2 (by rintro (h | h) <;> cases h)
    · split
      · exact .fail _ h2
      · exact .to h1 h2 (by rintro (h | h) <;> cases h)
  | fragment =>
    have h2 := fine_fragment (s := s) (i := i) rfl
    show StepFine s i (fragmentNotes s (s.drop i) i) (parseFragment s i url)
    unfold parseFragment
    dsimp only
    split
    · exact .to (by omega) h2 (by rintro (h | h) <;> cases h)
    · split
      · exact .fail _ h2
      · exact .to (by omega) h2 (by rintro (h | h) <;> cases h)
  | scheme => exact .fail i .nil
  | eof => exact .fail i .nil
where
  host : StepFine s i (if ov.isSome && url.scheme == u!"file" then [] else hostNotes env s ov url (s.drop i) [] false) (parseHost env s i url ov) := by
    unfold parseHost
    split
    · exact .to (Nat.le_refl _) .nil (by rintro (h | h) <;> cases h)
    · exact Forward.fine (forward_host _ _ _ _) (.silent (host_silent _ _ _))

theorem run_fine (env : Env) (e : Encoding) (s : Str) (base : Option Rec) (ov : Option PState) : ∀ (fuel : Nat) (st : PState) (i : Nat)
    (url : Rec) (ns : List Note), (Behind st → ColonAt s i) → Fine s 0 i ns → ∃ j, Fine s 0 j (runNotes env e s base ov fuel st i url ns) := by
  intro fuel
  induction fuel with
  | zero =>
    intro st i url ns _ h
    unfold runNotes
    split <;> exact ⟨i, h⟩
  | succ n ih =>
    intro st i url ns hst h
    unfold runNotes
    split
    · exact ⟨i, h⟩
    · dsimp only
      have hl := step_fine env e s base ov st i url hst
      split
      · rename_i h1
        rw [h1] at hl
        obtain ⟨j, hj⟩ := hl
        exact ⟨max j i, (hj.mono (Nat.le_refl _) (Nat.le_max_left _ _)).append h (by omega) (by omega) (Nat.le_max_right _ _)⟩
      · rename_i h1
        rw [h1] at hl
        obtain ⟨h2, h3, h4⟩ := hl
        exact ih _ _ _ _ h4 (h3.append h (by omega) (by omega) (by omega))

/-- descriptions without a position show the text, too -/
def Shows (s : Str) (ns : List Note) : Prop := ∀ k t, Note.plain k t ∈ ns → t = s

theorem Shows.nil {s : Str} : Shows s [] := by intro k t h; cases h

theorem Shows.plain {s : Str} {k : VErr} : Shows s [.plain k s] := by
  intro k' t h
  rw [List.mem_singleton] at h
  cases h
  rfl

theorem Shows.at {s t : Str} {k : VErr} {part : Option Str} {p : Nat} : Shows s [.at k part t p] := by
  intro k' t h
  rw [List.mem_singleton] at h
  cases h

theorem Shows.hosts {s : Str} {l : Log} : Shows s (l.map Note.host) := by
  intro k t h
  obtain ⟨e, -, he⟩ := List.mem_map.1 h
  cases he

theorem Shows.append {s : Str} {a b : List Note} (ha : Shows s a) (hb : Shows s b) : Shows s (a ++ b) := by
  intro k t h
  rcases List.mem_append.1 h with h | h
  · exact ha k t h
  · exact hb k t h

theorem shows_unit {s : Str} {i c : Nat} {cs : Str} : Shows s (unitNote s i c cs) := by
  unfold unitNote
  repeat' split
  all_goals first | exact .nil | exact .at

theorem shows_backslash {s : Str} {i : Nat} : Shows s (backslashNote s i) := by
  unfold backslashNote
  split
  · exact .at
  · exact .nil

theorem shows_solidus {s : Str} {i : Nat} : Shows s (solidusNote s i) := by
  unfold solidusNote
  split
  · exact .nil
  · exact .at

theorem shows_fragment {s : Str} : ∀ (r : Str) (i : Nat), Shows s (fragmentNotes s r i)
  | [], _ => .nil
  | _ :: cs, i => (shows_fragment cs (i + 1)).append shows_unit

theorem shows_query {s : Str} {ov : Bool} : ∀ (r : Str) (i : Nat), Shows s (queryNotes s ov r i)
  | [], _ => .nil
  | _ :: cs, i => by
    unfold queryNotes
    split
    · exact .nil
    · exact (shows_query cs (i + 1)).append shows_unit

theorem shows_opaque {s : Str} : ∀ (r : Str) (i : Nat), Shows s (opaqueNotes s r i)
  | [], _ => .nil
  | _ :: cs, i => by
    unfold opaqueNotes
    repeat' split
    all_goals first | exact .nil | exact (shows_opaque cs (i + 1)).append shows_unit

theorem shows_path {s : Str} {sp ov : Bool} : ∀ (r : Str) (i : Nat), Shows s (pathNotes s sp ov r i)
  | [], _ => .nil
  | _ :: cs, i => by
    unfold pathNotes
    repeat' split
    all_goals first
      | exact .nil
      | exact (shows_path cs (i + 1)).append shows_unit
      | exact (shows_path cs (i + 1)).append .at
      | exact shows_path cs (i + 1)

theorem shows_ignore {s : Str} : ∀ (r : Str) (i : Nat), Shows s (ignoreNotes s r i)
  | [], _ => .nil
  | _ :: cs, i => by
    unfold ignoreNotes
    split
    · exact (shows_ignore cs (i + 1)).append .at
    · exact .nil

theorem shows_authority {s : Str} {sp : Bool} : ∀ (r : Str) (i : Nat) (e a : Bool), Shows s (authorityNotes s sp r i e a)
  | [], _, e, a => by
    unfold authorityNotes
    split
    · exact .plain
    · exact .nil
  | _ :: cs, i, e, a => by
    unfold authorityNotes
    repeat' split
    all_goals first
      | exact .nil
      | exact .plain
      | exact (shows_authority cs (i + 1) _ _).append .at
      | exact shows_authority cs (i + 1) _ _

theorem shows_host {env : Env} {s : Str} {ov : Option PState} {url : Rec} : ∀ (r b : Str) (ins : Bool), Shows s (hostNotes env s ov url r b ins)
  | [], b, _ => fin b
  | c :: cs, b, ins => by
    unfold hostNotes
    repeat' split
    all_goals first
      | exact fin b
      | exact .hosts
      | exact .nil
      | exact .plain
      | exact shows_host cs _ _
where
  fin (b : Str) : Shows s (hostNotes.finish env s ov url b) := by
    unfold hostNotes.finish
    repeat' split
    all_goals first | exact .hosts | exact .nil | exact .plain

theorem shows_port {env : Env} {s : Str} {ov sp : Bool} : ∀ (r b : Str), Shows s (portNotes env s ov sp r b)
  | [], b => fin b
  | c :: cs, b => by
    unfold portNotes
    repeat' split
    all_goals first
      | exact fin b
      | exact .plain
      | exact shows_port cs _
where
  fin (b : Str) : Shows s (portNotes.finish env s b) := by
    unfold portNotes.finish
    repeat' split
    all_goals first | exact .nil | exact .plain

theorem shows_fileHost {env : Env} {s : Str} {ov sp : Bool} : ∀ (r : Str) (i : Nat) (b : Str), Shows s (fileHostNotes env s ov sp r i b)
  | [], i, b => fin i b
  | c :: cs, i, b => by
    unfold fileHostNotes
    split
    · exact fin i b
    · exact shows_fileHost cs _ _
where
  fin (i : Nat) (b : Str) : Shows s (fileHostNotes.finish env s ov sp i b) := by
    unfold fileHostNotes.finish
    repeat' split
    all_goals first | exact .hosts | exact .nil | exact .at

theorem shows_step {env : Env} {s : Str} {base : Option Rec} {ov : Option PState} {st : PState} {i : Nat} {url : Rec} :
    Shows s (stepNotes env s base ov st i url) := by
  unfold stepNotes fileNotes schemeNotes noSchemeNotes
  repeat' split
  all_goals first
    | exact .nil
    | exact .plain
    | exact .at
    | exact shows_solidus
    | exact shows_backslash
    | exact shows_ignore _ _
    | exact shows_authority _ _ _ _
    | exact shows_host _ _ _
    | exact shows_port _ _
    | exact shows_fileHost _ _ _
    | exact shows_path _ _
    | exact shows_opaque _ _
    | exact shows_query _ _
    | exact shows_fragment _ _

theorem shows_run {env : Env} {e : Encoding} {s : Str} {base : Option Rec} {ov : Option PState} : ∀ (fuel : Nat) (st : PState) (i : Nat)
    (url : Rec) (ns : List Note), ∃ ms, runNotes env e s base ov fuel st i url ns = ms ++ ns ∧ Shows s ms := by
  intro fuel
  induction fuel with
  | zero =>
    intro st i url ns
    unfold runNotes
    split <;> exact ⟨[], rfl, .nil⟩
  | succ n ih =>
    intro st i url ns
    unfold runNotes
    split
    · exact ⟨[], rfl, .nil⟩
    · dsimp only
      split
      · exact ⟨_, rfl, shows_step⟩
      · obtain ⟨ms, h1, h2⟩ := ih _ _ _ (stepNotes env s base ov st i url ++ ns)
        exact ⟨ms ++ stepNotes env s base ov st i url, by rw [List.append_assoc]; exact h1, h2.append shows_step⟩

theorem notes_fine (env : Env) (s : Str) (base : Option Rec) (e : Encoding) (url0 : Option Rec) (ov : Option PState)
    (hov : ∀ o, ov = some o → ¬ Behind o) : ∃ j, Fine (prepared s url0) 0 j (parseNotes env s base e url0 ov) := by
  have h0 : ∀ t i, Behind (ov.getD .schemeStart) → ColonAt t i := by
    intro t i h
    cases ov with
    | none => rcases h with h | h <;> cases h
    | some o => exact absurd h (hov o rfl)
  unfold parseNotes prepared
  dsimp only
  cases url0 with
  | none =>
    dsimp only
    refine run_fine _ _ _ _ _ _ _ _ _ _ (h0 _ _) (.silent ?_)
    split <;> split <;> simp [Note.pos]
  | some u =>
    dsimp only
    refine run_fine _ _ _ _ _ _ _ _ _ _ (h0 _ _) (.silent ?_)
    split <;> simp [Note.pos]

theorem notes_shown (env : Env) (s : Str) (base : Option Rec) (e : Encoding) (url0 : Option Rec) (ov : Option PState) {k : VErr} {t : Str}
    (h : Note.plain k t ∈ parseNotes env s base e url0 ov) : t = prepared s url0 ∨ t = s ∨ (url0 = none ∧ t = stripBoth isC0OrSpace s) := by
  unfold parseNotes at h
  cases url0 with
  | none =>
    dsimp only at h
    obtain ⟨ms, h1, h2⟩ := shows_run (env := env) (e := e) (s := removeTabNewline (stripBoth isC0OrSpace s)) (base := base) (ov := ov) maxSteps
      (ov.getD .schemeStart) 0 {} (if (stripBoth isC0OrSpace s).any isTabNewline = true then
        .plain .invalidURLUnit (stripBoth isC0OrSpace s) :: (if stripBoth isC0OrSpace s = s then [] else [.plain .invalidURLUnit s])
        else (if stripBoth isC0OrSpace s = s then [] else [.plain .invalidURLUnit s]))
    rw [show (none : Option Rec).getD {} = {} from rfl, h1] at h
    rcases List.mem_append.1 h with h | h
    · exact .inl (h2 _ _ h)
    · right
      split at h <;> split at h <;> simp at h <;> simp [h]
      rcases h with ⟨_, h⟩ | ⟨_, h⟩ <;> simp [h]
  | some u =>
    dsimp only at h
    obtain ⟨ms, h1, h2⟩ := shows_run (env := env) (e := e) (s := removeTabNewline s) (base := base) (ov := ov) maxSteps
      (ov.getD .schemeStart) 0 u (if s.any isTabNewline = true then [.plain .invalidURLUnit s] else [])
    rw [show (some u : Option Rec).getD {} = u from rfl, h1] at h
    rcases List.mem_append.1 h with h | h
    · exact .inl (h2 _ _ h)
    · right
      left
      split at h <;> simp at h
      exact h.2

end Urlstd
