/-
The standard's state machine follows the parser: the last states.
-/
import Verif.Lemmas.Machine1

set_option linter.unusedSimpArgs false
set_option linter.unusedVariables false

namespace Urlstd

open Spec (IsStr IsScalarStr encodeCP encodeAfter encoder Letter Cfg Ctx Next Outcome Halts runState codePoint)

/-- the standard's state for a state of the code (`eof` has none) -/
def PState.std : PState → Spec.State
  | .authority => .authority
  | .fileHost => .fileHost
  | .fileSlash => .fileSlash
  | .file => .file
  | .fragment => .fragment
  | .hostname => .hostname
  | .host => .host
  | .noScheme => .noScheme
  | .opaquePath => .opaquePath
  | .pathOrAuthority => .pathOrAuthority
  | .pathStart => .pathStart
  | .path => .path
  | .port => .port
  | .query => .query
  | .relativeSlash => .relativeSlash
  | .relative => .relative
  | .schemeStart => .schemeStart
  | .scheme => .scheme
  | .specialAuthorityIgnoreSlashes => .specialAuthorityIgnoreSlashes
  | .specialAuthoritySlashes => .specialAuthoritySlashes
  | .specialRelativeOrAuthority => .specialRelativeOrAuthority
  | .eof => .fragment

/-- the host parser of the code, without the kind of error -/
def hostOf (env : Env) (s : Str) (opq : Bool) : Option Host :=
  match (hostParse env s opq).res with
  | .ok h => some h
  | .error _ => none

/-- how a parse of the code ends, without the kind of error -/
def outcome : Except Err Unit × Rec → Outcome
  | (.ok _, u) => .ok u
  | (.error _, u) => .failure u

/-- the standard's machine for a parse of the code -/
def machine (env : Env) (e : Encoding) (base : Option Rec) (ov : Option PState) : Ctx :=
  ⟨base, encoder e, ov.map PState.std, hostOf env⟩

/-- what is assumed of a parse -/
structure SimOK (env : Env) (e : Encoding) (base : Option Rec) (s : Str) : Prop where
  scalar : IsScalarStr s
  enc : EncOK e
  noRef : NoRef e
  digits : env.maxStrDigits = 0 ∨ s.length ≤ env.maxStrDigits
  base : ∀ b, base = some b → isSpecialScheme b.scheme = true → ∃ p, b.path = .list p

section
variable {env : Env} {e : Encoding} {base : Option Rec} {ov : Option PState} {s : Str}

/-- the outcome of the code from a state -/
def E (env : Env) (e : Encoding) (base : Option Rec) (ov : Option PState) (st : PState) (rest : Str) (url : Rec) : Outcome :=
  outcome (eval env e base ov st rest url)

/-- the outcome of the code after a step -/
def after (env : Env) (e : Encoding) (base : Option Rec) (ov : Option PState) (o : SOut) : Outcome :=
  outcome (o.andThen env e base ov)

theorem E_step {st : PState} (h : st ≠ .eof) (rest : Str) (url : Rec) :
    E env e base ov st rest url = after env e base ov (sstep env e base ov st rest url) := by
  unfold E after; rw [eval_step env e base ov h]

theorem E_eof (rest : Str) (url : Rec) : E env e base ov .eof rest url = .ok url := by
  unfold E; rw [eval_eof]; rfl

theorem after_to (st : PState) (rest : Str) (url : Rec) : after env e base ov (.to st rest url) = E env e base ov st rest url := rfl
theorem after_fail (err : Err) (url : Rec) : after env e base ov (.fail err url) = .failure url := rfl

/-! ### Moves of the machine -/

theorem codePoint_drop (i : Nat) : codePoint s (i : Int) = (s.drop i).head? := by
  unfold codePoint
  rw [if_neg (by omega)]
  simp

theorem remaining_drop (i : Nat) : Spec.remaining s (i : Int) = (s.drop i).tail := by
  unfold Spec.remaining
  have : ((i : Int) + 1).toNat = i + 1 := by omega
  rw [this]
  simp

theorem drop_lt {i c : Nat} {cs : Str} (hd : s.drop i = c :: cs) : i < s.length := by
  have : (s.drop i).length = (c :: cs).length := by rw [hd]
  simp at this
  omega

theorem drop_next {i c : Nat} {cs : Str} (hd : s.drop i = c :: cs) : s.drop (i + 1) = cs := by
  rw [← List.drop_drop, hd]; rfl

theorem drop_nil {i : Nat} (hd : s.drop i = []) (hi : i ≤ s.length) : i = s.length := by
  have : (s.drop i).length = 0 := by rw [hd]; rfl
  simp at this
  omega

variable {K : Ctx} {k : Cfg} {o : Outcome}

theorem m_adv {i c : Nat} {cs buf buf' : Str} {a b p a' b' p' : Bool} {u u' : Rec} {st st' : Spec.State} (hd : s.drop i = c :: cs)
    (h : runState K (some c) cs ⟨st, i, buf, a, b, p, u⟩ = .go ⟨st', i, buf', a', b', p', u'⟩)
    (hn : Halts K s ⟨st', (i + 1 : Nat), buf', a', b', p', u'⟩ o) : Halts K s ⟨st, i, buf, a, b, p, u⟩ o := by
  refine .next (k' := ⟨st', i, buf', a', b', p', u'⟩) ?_ ?_ hn
  · dsimp only
    rw [codePoint_drop, remaining_drop, hd]
    exact h
  · have := drop_lt hd
    show (i : Int) ≠ s.length
    omega

theorem m_skip {i c : Nat} {c' : Nat} {cs buf buf' : Str} {a b p a' b' p' : Bool} {u u' : Rec} {st st' : Spec.State}
    (hd : s.drop i = c :: c' :: cs)
    (h : runState K (some c) (c' :: cs) ⟨st, i, buf, a, b, p, u⟩ = .go ⟨st', (i : Int) + 1, buf', a', b', p', u'⟩)
    (hn : Halts K s ⟨st', (i + 2 : Nat), buf', a', b', p', u'⟩ o) : Halts K s ⟨st, i, buf, a, b, p, u⟩ o := by
  refine .next (k' := ⟨st', (i : Int) + 1, buf', a', b', p', u'⟩) ?_ ?_ ?_
  · dsimp only
    rw [codePoint_drop, remaining_drop, hd]
    exact h
  · have := drop_lt (drop_next hd)
    show (i : Int) + 1 ≠ s.length
    omega
  · have : ((i : Int) + 1 + 1) = ((i + 2 : Nat) : Int) := by omega
    dsimp only
    rw [this]
    exact hn

theorem m_stay {i : Nat} {r buf buf' : Str} {a b p a' b' p' : Bool} {u u' : Rec} {st st' : Spec.State} (hd : s.drop i = r)
    (hi : i ≤ s.length)
    (h : runState K r.head? r.tail ⟨st, i, buf, a, b, p, u⟩ = .go ⟨st', (i : Int) - 1, buf', a', b', p', u'⟩)
    (hn : Halts K s ⟨st', i, buf', a', b', p', u'⟩ o) : Halts K s ⟨st, i, buf, a, b, p, u⟩ o := by
  refine .next (k' := ⟨st', (i : Int) - 1, buf', a', b', p', u'⟩) ?_ ?_ ?_
  · dsimp only
    rw [codePoint_drop, remaining_drop, hd]
    exact h
  · show (i : Int) - 1 ≠ s.length
    omega
  · have : ((i : Int) - 1 + 1) = i := by omega
    dsimp only
    rw [this]
    exact hn

theorem m_end {i : Nat} {buf buf' : Str} {a b p a' b' p' : Bool} {u u' : Rec} {st st' : Spec.State} (hd : s.drop i = [])
    (hi : i ≤ s.length)
    (h : runState K none [] ⟨st, i, buf, a, b, p, u⟩ = .go ⟨st', i, buf', a', b', p', u'⟩) :
    Halts K s ⟨st, i, buf, a, b, p, u⟩ (.ok u') := by
  refine Halts.eof (k' := ⟨st', i, buf', a', b', p', u'⟩) ?_ ?_
  · dsimp only
    rw [codePoint_drop, remaining_drop, hd]
    exact h
  · have := drop_nil hd hi
    show (i : Int) = s.length
    omega

theorem m_fail {i : Nat} {r buf : Str} {a b p : Bool} {u u' : Rec} {st : Spec.State} (hd : s.drop i = r)
    (h : runState K r.head? r.tail ⟨st, i, buf, a, b, p, u⟩ = .failure u') :
    Halts K s ⟨st, i, buf, a, b, p, u⟩ (.failure u') := by
  refine .failure ?_
  dsimp only
  rw [codePoint_drop, remaining_drop, hd]
  exact h

theorem m_ret {i : Nat} {r buf : Str} {a b p : Bool} {u u' : Rec} {st : Spec.State} (hd : s.drop i = r)
    (h : runState K r.head? r.tail ⟨st, i, buf, a, b, p, u⟩ = .ret u') :
    Halts K s ⟨st, i, buf, a, b, p, u⟩ (.ok u') := by
  refine .ret ?_
  dsimp only
  rw [codePoint_drop, remaining_drop, hd]
  exact h

/-! ### fragment -/

theorem m_fragment_loop (rest : Str) : ∀ (i : Nat) (hd : s.drop i = rest) (hi : i ≤ s.length) (buf : Str) (a b p : Bool) (u : Rec) (f : Str),
    u.fragment = some f →
    Halts K s ⟨.fragment, i, buf, a, b, p, u⟩ (.ok { u with fragment := some (f ++ rest.flatMap (encodeCP Spec.fragmentSet)) }) := by
  induction rest with
  | nil =>
    intro i hd hi buf a b p u f hf
    have := m_end (K := K) (st := .fragment) (buf := buf) (a := a) (b := b) (p := p) (u := u) hd hi rfl
    rw [hf] at this
    exact this
  | cons c cs ih =>
    intro i hd hi buf a b p u f hf
    refine m_adv hd rfl ?_
    have := ih (i + 1) (drop_next hd) (drop_lt hd) buf a b p
      { u with fragment := u.fragment.map (· ++ (some c).toList.flatMap (encodeCP Spec.fragmentSet)) }
      (f ++ encodeCP Spec.fragmentSet c) (by rw [hf]; simp)
    simpa using this

theorem m_fragment (hS : SimOK env e base s) {rest : Str} {i : Nat} (hd : s.drop i = rest) (hi : i ≤ s.length) (buf : Str) (a b p : Bool)
    {u : Rec} {f : Str} (hf : u.fragment = some f) :
    Halts K s ⟨.fragment, i, buf, a, b, p, u⟩ (E env e base ov .fragment rest u) := by
  have hr : IsScalarStr rest := hS.scalar.mono fun c hc => by rw [← hd] at hc; exact List.mem_of_mem_drop hc
  have := m_fragment_loop (K := K) rest i hd hi buf a b p u f hf
  unfold E
  rw [eval_fragment_any hf, encode_each agree_fragment hr]
  exact this

/-! ### query -/

theorem scalar_rest (hS : SimOK env e base s) {rest : Str} {i : Nat} (hd : s.drop i = rest) : IsScalarStr rest :=
  hS.scalar.mono fun c hc => by rw [← hd] at hc; exact List.mem_of_mem_drop hc

theorem isSpecial_rec (u : Rec) : Spec.isSpecial u.scheme = u.isSpecial := isSpecial_eq _

/-- the standard's encoding of a query -/
def stdQuery (e : Encoding) (u : Rec) (t : Str) : Str :=
  encodeAfter (if !u.isSpecial || u.scheme == u!"ws" || u.scheme == u!"wss" then encoder .utf8 else encoder e)
    (if u.isSpecial then Spec.specialQuerySet else Spec.querySet) t

theorem stdQuery_eq (hS : SimOK env e base s) (u : Rec) {t : Str} (ht : IsScalarStr t) : encodeQuery e u t = stdQuery e u t := by
  unfold encodeQuery stdQuery
  have h1 : Agree (if u.isSpecial = true then safeSpecialQuery else safeQuery)
      (if u.isSpecial = true then Spec.specialQuerySet else Spec.querySet) := by
    split
    · exact agree_specialQuery
    · exact agree_query
  revert h1
  generalize (if u.isSpecial = true then safeSpecialQuery else safeQuery) = f
  generalize (if u.isSpecial = true then Spec.specialQuerySet else Spec.querySet) = g
  intro h1
  split
  · rw [encode_after (e := .utf8) trivial trivial h1 ht]
  · rw [encode_after hS.enc hS.noRef h1 ht]

/-- the outcome of the query state with `t` in the buffer and `rest` ahead -/
def queryEnd (env : Env) (e : Encoding) (base : Option Rec) (ov : Option PState) (u : Rec) (q t rest : Str) : Outcome :=
  let u := { u with query := some (q ++ stdQuery e u (t ++ queryText ov.isSome rest)) }
  if (queryRest ov.isSome rest).isEmpty then .ok u
  else E env e base ov .fragment (queryRest ov.isSome rest).tail { u with fragment := some [] }

theorem run_query (c : Option Nat) (r buf : Str) (i : Int) (a b p : Bool) (u : Rec) :
    runState K c r ⟨.query, i, buf, a, b, p, u⟩ =
      if ((!K.override.isSome && c == some c!"#") || c == none) = true then
        (if c = some c!"#" then
          .go ⟨.fragment, i, [], a, b, p, { u with query := u.query.map (· ++ encodeAfter
              (if !Spec.isSpecial u.scheme || u.scheme == u!"ws" || u.scheme == u!"wss" then encoder .utf8 else K.enc)
              (if Spec.isSpecial u.scheme then Spec.specialQuerySet else Spec.querySet) buf), fragment := some [] }⟩
        else .go ⟨.query, i, [], a, b, p, { u with query := u.query.map (· ++ encodeAfter
              (if !Spec.isSpecial u.scheme || u.scheme == u!"ws" || u.scheme == u!"wss" then encoder .utf8 else K.enc)
              (if Spec.isSpecial u.scheme then Spec.specialQuerySet else Spec.querySet) buf) }⟩)
      else .go ⟨.query, i, buf ++ c.toList, a, b, p, u⟩ := rfl

theorem m_query_loop (hS : SimOK env e base s) (rest : Str) : ∀ (i : Nat) (hd : s.drop i = rest) (hi : i ≤ s.length)
    (buf : Str) (a b p : Bool) (u : Rec) (q : Str), u.query = some q →
    Halts (machine env e base ov) s ⟨.query, i, buf, a, b, p, u⟩ (queryEnd env e base ov u q buf rest) := by
  have hov : (machine env e base ov).override.isSome = ov.isSome := by simp [machine]
  have hen : (machine env e base ov).enc = encoder e := rfl
  have key : ∀ (u : Rec) (q buf : Str), u.query = some q → u.query.map (· ++ encodeAfter
              (if !Spec.isSpecial u.scheme || u.scheme == u!"ws" || u.scheme == u!"wss" then encoder .utf8 else (machine env e base ov).enc)
              (if Spec.isSpecial u.scheme then Spec.specialQuerySet else Spec.querySet) buf) = some (q ++ stdQuery e u buf) := by
    intro u q buf hq
    rw [hq, isSpecial_rec, hen]
    rfl
  induction rest with
  | nil =>
    intro i hd hi buf a b p u q hq
    have h := run_query (K := machine env e base ov) none [] buf i a b p u
    rw [if_pos (by simp), if_neg (by simp), key u q buf hq] at h
    have h := m_end hd hi h
    unfold queryEnd
    cases ov <;> simpa [queryText, queryRest] using h
  | cons c cs ih =>
    intro i hd hi buf a b p u q hq
    have h := run_query (K := machine env e base ov) (some c) cs buf i a b p u
    rw [hov] at h
    by_cases hc : ov.isSome = false ∧ c = 35
    · rw [if_pos (by simp [hc.1, hc.2]), if_pos (by rw [hc.2]), key u q buf hq] at h
      refine m_adv hd h ?_
      unfold queryEnd
      have h1 : queryText ov.isSome (c :: cs) = [] := by
        simp [queryText, hc.1, hc.2, notHash]
      have h2 : queryRest ov.isSome (c :: cs) = c :: cs := by
        simp [queryRest, hc.1, hc.2, notHash]
      rw [h1, h2]
      simp only [List.append_nil, List.isEmpty_cons, Bool.false_eq_true, if_false, List.tail_cons]
      exact m_fragment hS (drop_next hd) (drop_lt hd) _ _ _ _ rfl
    · rw [if_neg (by simpa using hc)] at h
      refine m_adv hd h ?_
      have := ih (i + 1) (drop_next hd) (drop_lt hd) (buf ++ (some c).toList) a b p u q hq
      unfold queryEnd at this ⊢
      have h1 : queryText ov.isSome (c :: cs) = c :: queryText ov.isSome cs := by
        unfold queryText
        cases hv : ov.isSome with
        | true => rfl
        | false =>
          have : ¬ c = 35 := fun h => hc ⟨hv, h⟩
          simp [notHash, this]
      have h2 : queryRest ov.isSome (c :: cs) = queryRest ov.isSome cs := by
        unfold queryRest
        cases hv : ov.isSome with
        | true => rfl
        | false =>
          have : ¬ c = 35 := fun h => hc ⟨hv, h⟩
          simp [notHash, this]
      rw [h1, h2]
      simpa using this

theorem m_query (hS : SimOK env e base s) {rest : Str} {i : Nat} (hd : s.drop i = rest) (hi : i ≤ s.length) (a b p : Bool)
    {u : Rec} {q : Str} (hq : u.query = some q) :
    Halts (machine env e base ov) s ⟨.query, i, [], a, b, p, u⟩ (E env e base ov .query rest u) := by
  have hr := scalar_rest hS hd
  have := m_query_loop (ov := ov) hS rest i hd hi [] a b p u q hq
  rw [E_step (by decide)]
  show Halts _ _ _ (after env e base ov (sQuery e ov rest u))
  unfold queryEnd at this
  unfold sQuery
  dsimp only
  have hT : IsScalarStr (queryText ov.isSome rest) := hr.mono fun c hc => by
    unfold queryText at hc
    split at hc
    · exact hc
    · exact (List.takeWhile_sublist _).subset hc
  rw [List.nil_append, ← stdQuery_eq hS u hT] at this
  have frag : ∀ u : Rec, E env e base ov .fragment [] u = .ok u := by
    intro u
    rw [E_step (by decide)]
    exact E_eof _ _
  by_cases h1 : (queryRest ov.isSome rest).isEmpty = true
  · rw [if_pos h1] at this
    by_cases h2 : (queryText ov.isSome rest).isEmpty = true
    · rw [if_pos (by simp only [h1, h2, Bool.and_self]), after_to, frag]
      rw [List.isEmpty_iff.1 h2, encodeQuery_nil, List.append_nil, ← hq] at this
      exact this
    · rw [if_neg (by simp [h1, h2]), hq]
      dsimp only
      rw [after_to, if_pos h1, List.isEmpty_iff.1 h1]
      show Halts _ _ _ (E env e base ov .fragment [] _)
      rw [frag]
      exact this
  · rw [if_neg h1] at this
    rw [if_neg (by simp [h1]), hq]
    dsimp only
    rw [after_to, if_neg h1]
    exact this

/-! ### opaque path -/

theorem run_opaque (c : Option Nat) (r buf : Str) (i : Int) (a b p : Bool) (u : Rec) :
    runState K c r ⟨.opaquePath, i, buf, a, b, p, u⟩ =
      if c = some c!"?" then .go ⟨.query, i, buf, a, b, p, { u with query := some [] }⟩
      else if c = some c!"#" then .go ⟨.fragment, i, buf, a, b, p, { u with fragment := some [] }⟩
      else .go ⟨.opaquePath, i, buf, a, b, p, Spec.pushOpaque u (c.toList.flatMap (encodeCP Spec.c0Set))⟩ := rfl

theorem sOpaquePath_cons {c : Nat} (hc : notQF c = true) (cs : Str) (u : Rec) {t : Str} (ht : u.path = .opaque t) :
    sOpaquePath (c :: cs) u = sOpaquePath cs { u with path := .opaque (t ++ utf8PercentEncode [c] safeC0) } := by
  unfold sOpaquePath
  rw [List.takeWhile_cons_of_pos hc, List.dropWhile_cons_of_pos hc, ht]
  simp [Path.addText]

theorem m_opaque (hS : SimOK env e base s) (rest : Str) : ∀ (i : Nat) (hd : s.drop i = rest) (hi : i ≤ s.length)
    (a b p : Bool) (u : Rec) (t : Str), u.path = .opaque t →
    Halts (machine env e base ov) s ⟨.opaquePath, i, [], a, b, p, u⟩ (E env e base ov .opaquePath rest u) := by
  induction rest with
  | nil =>
    intro i hd hi a b p u t ht
    have h := run_opaque (K := machine env e base ov) none [] [] i a b p u
    rw [if_neg (by simp), if_neg (by simp)] at h
    have h := m_end hd hi h
    rw [E_step (by decide)]
    have e1 : sstep env e base ov .opaquePath [] u = .to .eof [] { u with path := u.path.addText [] } := rfl
    rw [e1, after_to, E_eof]
    have e2 : ({ u with path := u.path.addText [] } : Rec) = Spec.pushOpaque u ((none : Option Nat).toList.flatMap (encodeCP Spec.c0Set)) := by
      unfold Spec.pushOpaque Path.addText
      rw [ht]
      rfl
    rw [e2]
    exact h
  | cons c cs ih =>
    intro i hd hi a b p u t ht
    have h := run_opaque (K := machine env e base ov) (some c) cs [] i a b p u
    rw [E_step (by decide)]
    show Halts _ _ _ (after env e base ov (sOpaquePath (c :: cs) u))
    by_cases h1 : c = 63
    · subst h1
      rw [if_pos rfl] at h
      refine m_adv hd h ?_
      have : sOpaquePath (63 :: cs) u = .to .query cs { u with query := some [] } := by
        have e1 : sOpaquePath (63 :: cs) u = .to .query cs { u with path := u.path.addText [], query := some [] } := rfl
        rw [e1, ht]
        simp [Path.addText, ← ht]
      rw [this]
      exact m_query hS (drop_next hd) (drop_lt hd) _ _ _ rfl
    · rw [if_neg (by simp [h1])] at h
      by_cases h2 : c = 35
      · subst h2
        rw [if_pos rfl] at h
        refine m_adv hd h ?_
        have : sOpaquePath (35 :: cs) u = .to .fragment cs { u with fragment := some [] } := by
          have e1 : sOpaquePath (35 :: cs) u = .to .fragment cs { u with path := u.path.addText [], fragment := some [] } := rfl
          rw [e1, ht]
          simp [Path.addText, ← ht]
        rw [this]
        exact m_fragment hS (drop_next hd) (drop_lt hd) _ _ _ _ rfl
      · rw [if_neg (by simp [h2])] at h
        refine m_adv hd h ?_
        rw [sOpaquePath_cons (by simp [notQF, h1, h2]) cs u ht]
        have hc1 : IsScalarStr [c] := (scalar_rest hS hd).mono fun x hx => by
          rw [List.mem_singleton] at hx; rw [hx]; simp
        rw [encode_one agree_c0 hc1]
        have e2 : Spec.pushOpaque u ((some c).toList.flatMap (encodeCP Spec.c0Set)) =
            { u with path := .opaque (t ++ encodeCP Spec.c0Set c) } := by
          unfold Spec.pushOpaque
          rw [ht]
          simp
        rw [e2]
        have := ih (i + 1) (drop_next hd) (drop_lt hd) a b p { u with path := .opaque (t ++ encodeCP Spec.c0Set c) } _ rfl
        rw [E_step (by decide)] at this
        exact this

/-! ### path -/

theorem run_path (c : Option Nat) (r buf : Str) (i : Int) (a b p : Bool) (u : Rec) :
    runState K c r ⟨.path, i, buf, a, b, p, u⟩ =
      let slash := c == some c!"/" || (Spec.isSpecial u.scheme && c == some c!"\\")
      if (c == none || slash || (!K.override.isSome && (c == some c!"?" || c == some c!"#"))) = true then
        let u' :=
          if Spec.doubleDot buf = true then (if slash = true then Spec.shorten u else Spec.pushSegment (Spec.shorten u) [])
          else if Spec.singleDot buf = true then (if slash = true then u else Spec.pushSegment u [])
          else Spec.pushSegment u
            (if u.scheme = u!"file" ∧ u.path = .list [] ∧ Spec.isDrive buf = true then buf.take 1 ++ u!":" else buf)
        if c = some c!"?" then .go ⟨.query, i, [], a, b, p, { u' with query := some [] }⟩
        else if c = some c!"#" then .go ⟨.fragment, i, [], a, b, p, { u' with fragment := some [] }⟩
        else .go ⟨.path, i, [], a, b, p, u'⟩
      else .go ⟨.path, i, buf ++ c.toList.flatMap (encodeCP Spec.pathSet), a, b, p, u⟩ := rfl

/-- what the path state does with `raw` in the buffer and `rest` ahead -/
def pathEnd (ov : Option PState) (u : Rec) (pp : List Str) (raw rest : Str) : SOut :=
  afterPath .opaquePath (pathRest ov.isSome rest)
    { u with path := .list (addPieces u.scheme pp (consPiece raw (pathPieces u.isSpecial (pathText ov.isSome rest)))) }

theorem consPiece_nil {ps : List Str} (h : ps ≠ []) : consPiece [] ps = ps := by
  cases ps with
  | nil => exact absurd rfl h
  | cons p ps => rfl

theorem m_path_loop (hS : SimOK env e base s) (rest : Str) : ∀ (i : Nat) (hd : s.drop i = rest) (hi : i ≤ s.length)
    (raw : Str) (hraw : IsScalarStr raw) (a b p : Bool) (u : Rec) (pp : List Str), u.path = .list pp →
    Halts (machine env e base ov) s ⟨.path, i, raw.flatMap (encodeCP Spec.pathSet), a, b, p, u⟩
      (after env e base ov (pathEnd ov u pp raw rest)) := by
  have hov : (machine env e base ov).override.isSome = ov.isSome := by simp [machine]
  induction rest with
  | nil =>
    intro i hd hi raw hraw a b p u pp hp
    have h := run_path (K := machine env e base ov) none [] (raw.flatMap (encodeCP Spec.pathSet)) i a b p u
    dsimp only at h
    rw [if_pos (by simp), if_neg (by simp), if_neg (by simp)] at h
    have hsl : ((none : Option Nat) == some c!"/" || (Spec.isSpecial u.scheme && (none : Option Nat) == some c!"\\")) = false := by simp
    rw [hsl, segment_eq hp hraw] at h
    have h := m_end hd hi h
    have e1 : pathText ov.isSome [] = [] := by unfold pathText; split <;> rfl
    have e2 : pathRest ov.isSome [] = [] := by unfold pathRest; split <;> rfl
    unfold pathEnd
    rw [e1, e2]
    show Halts _ _ _ (E env e base ov .opaquePath [] _)
    rw [E_step (by decide)]
    show Halts _ _ _ (E env e base ov .eof [] _)
    rw [E_eof]
    have e3 : consPiece raw (pathPieces u.isSpecial []) = [raw] := by simp [pathPieces, consPiece]
    rw [e3]
    have e4 : ∀ l : List Str, (Path.list l).addText [] = .list l := fun l => by simp [Path.addText]
    simp only [List.takeWhile_nil, List.flatMap_nil]
    rw [e4]
    exact h
  | cons c cs ih =>
    intro i hd hi raw hraw a b p u pp hp
    have h := run_path (K := machine env e base ov) (some c) cs (raw.flatMap (encodeCP Spec.pathSet)) i a b p u
    dsimp only at h
    rw [hov, isSpecial_rec] at h
    have hsep : (some c == some c!"/" || (u.isSpecial && some c == some c!"\\")) = isPathSep u.isSpecial c := by
      rw [Bool.eq_iff_iff]
      simp [isPathSep]
    rw [hsep, segment_eq hp hraw] at h
    by_cases h1 : isPathSep u.isSpecial c = true
    · have hq : notQF c = true := by
        unfold isPathSep at h1
        simp only [Bool.or_eq_true, Bool.and_eq_true, decide_eq_true_eq] at h1
        unfold notQF
        rcases h1 with h1 | ⟨_, h1⟩ <;> rw [h1] <;> rfl
      have n1 : c ≠ 63 := by rintro rfl; cases hq
      have n2 : c ≠ 35 := by rintro rfl; cases hq
      rw [if_pos (by simp [h1]), if_neg (by simp [n1]), if_neg (by simp [n2]), h1] at h
      refine m_adv hd h ?_
      have := ih (i + 1) (drop_next hd) (drop_lt hd) [] .nil a b p { u with path := .list (addSegment u.scheme pp raw true) } _ rfl
      have e1 : pathText ov.isSome (c :: cs) = c :: pathText ov.isSome cs := by
        unfold pathText; split
        · rfl
        · rw [List.takeWhile_cons_of_pos hq]
      have e2 : pathRest ov.isSome (c :: cs) = pathRest ov.isSome cs := by
        unfold pathRest; split
        · rfl
        · rw [List.dropWhile_cons_of_pos hq]
      have e3 : pathEnd ov u pp raw (c :: cs) = pathEnd ov { u with path := .list (addSegment u.scheme pp raw true) }
          (addSegment u.scheme pp raw true) [] cs := by
        unfold pathEnd
        dsimp only
        have e5 : Rec.isSpecial { u with path := .list (addSegment u.scheme pp raw true) } = u.isSpecial := rfl
        rw [e1, e2, pathPieces_sep h1, e5, consPiece_nil (pathPieces_ne_nil _ _)]
        have e4 : consPiece raw ([] :: pathPieces u.isSpecial (pathText ov.isSome cs)) = raw :: pathPieces u.isSpecial (pathText ov.isSome cs) := by
          simp [consPiece]
        rw [e4, addPieces_cons (pathPieces_ne_nil _ _)]
      rw [e3]
      exact this
    · have h1' : isPathSep u.isSpecial c = false := by simpa using h1
      by_cases h2 : ov.isSome = false ∧ (c = 63 ∨ c = 35)
      · have hq : notQF c = false := by
          rcases h2.2 with h | h <;> rw [h] <;> rfl
        have e1 : pathText ov.isSome (c :: cs) = [] := by
          unfold pathText; rw [h2.1, if_neg (by simp), List.takeWhile_cons_of_neg (by simp [hq])]
        have e2 : pathRest ov.isSome (c :: cs) = c :: cs := by
          unfold pathRest; rw [h2.1, if_neg (by simp), List.dropWhile_cons_of_neg (by simp [hq])]
        have e3 : consPiece raw (pathPieces u.isSpecial []) = [raw] := by simp [pathPieces, consPiece]
        rw [if_pos (by rcases h2.2 with hh | hh <;> simp [h2.1, hh]), h1'] at h
        unfold pathEnd
        rw [e1, e2, e3]
        rcases h2.2 with hh | hh
        · subst hh
          rw [if_pos rfl] at h
          refine m_adv hd h ?_
          show Halts _ _ _ (E env e base ov .query cs _)
          exact m_query hS (drop_next hd) (drop_lt hd) _ _ _ rfl
        · subst hh
          rw [if_neg (by simp), if_pos rfl] at h
          refine m_adv hd h ?_
          show Halts _ _ _ (E env e base ov .fragment cs _)
          exact m_fragment hS (drop_next hd) (drop_lt hd) _ _ _ _ rfl
      · have hq : ov.isSome = true ∨ notQF c = true := by
          by_cases hv : ov.isSome = true
          · exact .inl hv
          · right
            have hv : ov.isSome = false := by simpa using hv
            unfold notQF
            have : ¬ (c = 63 ∨ c = 35) := fun hx => h2 ⟨hv, hx⟩
            simp only [not_or] at this
            simp [this.1, this.2]
        rw [if_neg (by
          rw [h1']
          simp only [Bool.or_false, Bool.or_eq_true, Bool.and_eq_true, not_or, not_and, beq_iff_eq, Option.some.injEq,
            Bool.not_eq_true', Bool.not_eq_true, reduceCtorEq, not_false_eq_true, true_and]
          intro hv
          exact ⟨fun hx => h2 ⟨hv, .inl hx⟩, fun hx => h2 ⟨hv, .inr hx⟩⟩)] at h
        refine m_adv hd h ?_
        have hc1 : IsScalarStr [c] := (scalar_rest hS hd).mono fun x hx => by
          rw [List.mem_singleton] at hx; rw [hx]; simp
        have := ih (i + 1) (drop_next hd) (drop_lt hd) (raw ++ [c]) (hraw.append hc1) a b p u pp hp
        have e1 : pathText ov.isSome (c :: cs) = c :: pathText ov.isSome cs := by
          unfold pathText
          rcases hq with hq | hq
          · rw [if_pos hq, if_pos hq]
          · split
            · rfl
            · rw [List.takeWhile_cons_of_pos hq]
        have e2 : pathRest ov.isSome (c :: cs) = pathRest ov.isSome cs := by
          unfold pathRest
          rcases hq with hq | hq
          · rw [if_pos hq, if_pos hq]
          · split
            · rfl
            · rw [List.dropWhile_cons_of_pos hq]
        have e3 : pathEnd ov u pp raw (c :: cs) = pathEnd ov u pp (raw ++ [c]) cs := by
          unfold pathEnd
          rw [e1, e2, pathPieces_char h1', consPiece_consPiece]
        rw [e3]
        simpa using this

theorem E_path {rest : Str} {u : Rec} {pp : List Str} (hp : u.path = .list pp) :
    E env e base ov .path rest u = after env e base ov (pathEnd ov u pp [] rest) := by
  rw [E_step (by decide)]
  show after env e base ov (sPath ov rest u) = _
  unfold sPath pathEnd
  rw [hp, consPiece_nil (pathPieces_ne_nil _ _)]

theorem m_path (hS : SimOK env e base s) {rest : Str} {i : Nat} (hd : s.drop i = rest) (hi : i ≤ s.length)
    (a b p : Bool) {u : Rec} {pp : List Str} (hp : u.path = .list pp) :
    Halts (machine env e base ov) s ⟨.path, i, [], a, b, p, u⟩ (E env e base ov .path rest u) := by
  rw [E_path hp]
  exact m_path_loop hS rest i hd hi [] .nil a b p u pp hp

/-! ### path start -/

theorem run_pathStart (c : Option Nat) (r buf : Str) (i : Int) (a b p : Bool) (u : Rec) :
    runState K c r ⟨.pathStart, i, buf, a, b, p, u⟩ =
      if Spec.isSpecial u.scheme = true then
        (if c = some c!"/" ∨ c = some c!"\\" then .go ⟨.path, i, buf, a, b, p, u⟩ else .go ⟨.path, i - 1, buf, a, b, p, u⟩)
      else if (!K.override.isSome && c == some c!"?") = true then .go ⟨.query, i, buf, a, b, p, { u with query := some [] }⟩
      else if (!K.override.isSome && c == some c!"#") = true then .go ⟨.fragment, i, buf, a, b, p, { u with fragment := some [] }⟩
      else if c ≠ none then
        (if c = some c!"/" then .go ⟨.path, i, buf, a, b, p, u⟩ else .go ⟨.path, i - 1, buf, a, b, p, u⟩)
      else if (K.override.isSome && u.host == none) = true then .go ⟨.pathStart, i, buf, a, b, p, Spec.pushSegment u []⟩
      else .go ⟨.pathStart, i, buf, a, b, p, u⟩ := rfl

theorem m_pathStart (hS : SimOK env e base s) {rest : Str} {i : Nat} (hd : s.drop i = rest) (hi : i ≤ s.length)
    (a b p : Bool) {u : Rec} {pp : List Str} (hp : u.path = .list pp) :
    Halts (machine env e base ov) s ⟨.pathStart, i, [], a, b, p, u⟩ (E env e base ov .pathStart rest u) := by
  have hov : (machine env e base ov).override.isSome = ov.isSome := by simp [machine]
  rw [E_step (by decide)]
  show Halts _ _ _ (after env e base ov (sPathStart ov rest u))
  unfold sPathStart
  cases rest with
  | nil =>
    have h := run_pathStart (K := machine env e base ov) none [] [] i a b p u
    rw [hov, isSpecial_rec] at h
    dsimp only
    by_cases h1 : u.isSpecial = true
    · rw [if_pos h1, if_neg (by simp)] at h
      rw [if_pos h1, after_to]
      exact m_stay hd hi h (m_path hS hd hi _ _ _ hp)
    · rw [if_neg h1, if_neg (by simp), if_neg (by simp), if_neg (by simp)] at h
      rw [if_neg h1]
      by_cases h2 : (ov.isSome && u.host.isNone) = true
      · rw [if_pos (by simpa using h2)] at h
        have h := m_end hd hi h
        rw [if_pos h2, hp, after_to, E_eof]
        unfold Spec.pushSegment at h
        rw [hp] at h
        exact h
      · rw [if_neg (by simpa using h2)] at h
        have h := m_end hd hi h
        rw [if_neg h2, after_to, E_eof]
        exact h
  | cons c cs =>
    have h := run_pathStart (K := machine env e base ov) (some c) cs [] i a b p u
    rw [hov, isSpecial_rec] at h
    dsimp only
    by_cases h1 : u.isSpecial = true
    · rw [if_pos h1] at h
      by_cases h2 : c = 47 ∨ c = 92
      · rw [if_pos (by simpa using h2)] at h
        rw [if_pos (by unfold isPathSep; rcases h2 with h2 | h2 <;> simp [h1, h2]), after_to]
        exact m_adv hd h (m_path hS (drop_next hd) (drop_lt hd) _ _ _ hp)
      · rw [if_neg (by simpa using h2)] at h
        rw [if_neg (by
          unfold isPathSep
          simp only [not_or] at h2
          simp [h2.1, h2.2]), if_pos h1, after_to]
        exact m_stay hd hi h (m_path hS hd hi _ _ _ hp)
    · rw [if_neg h1] at h
      have hsep : isPathSep u.isSpecial c = decide (c = 47) := by simp [isPathSep, h1]
      rw [hsep]
      by_cases h0 : c = 47
      · subst h0
        rw [if_neg (by simp), if_neg (by simp), if_pos (by simp), if_pos rfl] at h
        rw [if_pos (by simp), after_to]
        exact m_adv hd h (m_path hS (drop_next hd) (drop_lt hd) _ _ _ hp)
      · rw [if_neg (by simpa using h0), if_neg h1]
        by_cases h2 : ov.isSome = false ∧ c = 63
        · rw [if_pos (by simp [h2.1, h2.2])] at h
          rw [if_pos (by have := h2.1; simp at this; simp [this, h2.2]), after_to]
          exact m_adv hd h (m_query hS (drop_next hd) (drop_lt hd) _ _ _ rfl)
        · rw [if_neg (by simpa using h2)] at h
          rw [if_neg (by simpa using h2)]
          by_cases h3 : ov.isSome = false ∧ c = 35
          · rw [if_pos (by simp [h3.1, h3.2])] at h
            rw [if_pos (by have := h3.1; simp at this; simp [this, h3.2]), after_to]
            exact m_adv hd h (m_fragment hS (drop_next hd) (drop_lt hd) _ _ _ _ rfl)
          · rw [if_neg (by simpa using h3), if_pos (by simp), if_neg (by simp [h0])] at h
            rw [if_neg (by simpa using h3), after_to]
            exact m_stay hd hi h (m_path hS hd hi _ _ _ hp)

end

end Urlstd
