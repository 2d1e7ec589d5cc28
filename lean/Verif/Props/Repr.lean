/-
C86: `repr` shows the object.
-/
import Verif.Lemmas.ReprBig
import Verif.Lemmas.Generic
import Verif.Props.Generic
import Verif.Props.Origin

set_option linter.unusedVariables false

namespace Urlstd.Props

open Spec

/-- the attributes of a record as the annotations of the class say: strings, a tuple of eight integers -/
structure PyRec (u : Rec) : Prop where
  scheme : IsStr u.scheme
  username : IsStr u.username
  password : IsStr u.password
  domain : ∀ s, u.host = some (.str s) → IsStr s
  ipv6 : ∀ a, u.host = some (.ipv6 a) → a.length = 8
  segments : ∀ l, u.path = .list l → ∀ s ∈ l, IsStr s
  opaquePath : ∀ s, u.path = .opaque s → IsStr s
  query : ∀ s, u.query = some s → IsStr s
  fragment : ∀ s, u.fragment = some s → IsStr s

/-- C86. The representation of a string is a literal of this string, whatever follows. -/
theorem C86_str (pr : Nat → Bool) (s r : Str) (hs : IsStr s) : Literal.str (reprStr pr s ++ r) = some (s, r) :=
  reprStr_read hs r

/-- C86. It consists of printable characters, so it does not have a line break. -/
theorem C86_printable (pr : Nat → Bool) (s : Str) (c : Nat) (hc : c ∈ reprStr pr s) :
    (32 ≤ c ∧ c ≤ 126) ∨ (127 < c ∧ pr c = true) := by
  have hex : ∀ w n, ∀ c ∈ hexFixed w n, 32 ≤ c ∧ c ≤ 126 := by
    intro w
    induction w with
    | zero => intro n c hc; cases hc
    | succ w ih =>
      intro n c hc
      rcases List.mem_append.1 hc with hc | hc
      · exact ih _ c hc
      · simp only [List.mem_cons, List.not_mem_nil, or_false] at hc
        have : n % 16 < 16 := Nat.mod_lt _ (by decide)
        unfold hexDigitLower at hc
        split at hc <;> omega
  have hq := reprQuote_or s
  have hlit : ∀ (t : Str) (w n : Nat), (∀ c ∈ t, 32 ≤ c ∧ c ≤ 126) → ∀ c ∈ t ++ hexFixed w n, 32 ≤ c ∧ c ≤ 126 := by
    intro t w n ht c hc
    rcases List.mem_append.1 hc with hc | hc
    · exact ht c hc
    · exact hex _ _ c hc
  unfold reprStr at hc
  rcases List.mem_cons.1 hc with hc | hc
  · omega
  rcases List.mem_append.1 hc with hc | hc
  · obtain ⟨x, -, hc⟩ := List.mem_flatMap.1 hc
    unfold reprChar at hc
    split at hc
    · next h =>
      simp only [Bool.or_eq_true, decide_eq_true_eq] at h
      simp only [List.mem_cons, List.not_mem_nil, or_false] at hc
      omega
    split at hc
    · exact .inl ((by decide : ∀ c ∈ u!"\\t", 32 ≤ c ∧ c ≤ 126) c hc)
    split at hc
    · exact .inl ((by decide : ∀ c ∈ u!"\\n", 32 ≤ c ∧ c ≤ 126) c hc)
    split at hc
    · exact .inl ((by decide : ∀ c ∈ u!"\\r", 32 ≤ c ∧ c ≤ 126) c hc)
    split at hc
    · exact .inl (hlit _ _ _ (by decide) c hc)
    next h32 =>
    simp only [Bool.or_eq_true, decide_eq_true_eq, not_or] at h32
    split at hc
    · simp only [List.mem_cons, List.not_mem_nil, or_false] at hc
      omega
    split at hc
    · next hp =>
      simp only [List.mem_cons, List.not_mem_nil, or_false] at hc
      subst hc
      exact .inr ⟨by omega, hp⟩
    split at hc
    · exact .inl (hlit _ _ _ (by decide) c hc)
    split at hc
    · exact .inl (hlit _ _ _ (by decide) c hc)
    · exact .inl (hlit _ _ _ (by decide) c hc)
  · simp only [List.mem_cons, List.not_mem_nil, or_false] at hc
    omega

theorem reprInt_ok {env : Env} {n : Nat} {t : Str} (h : reprInt env n = .ok t) : t = natDec n := by
  unfold reprInt at h
  split at h
  · cases h
  · exact (Except.ok.inj h).symm

theorem reprInts_ok {env : Env} (l : List Nat) : ∀ {ss : List Str}, reprInts env l = .ok ss → ss = l.map natDec := by
  induction l with
  | nil => intro ss h; exact (Except.ok.inj h).symm
  | cons n l ih =>
    intro ss h
    unfold reprInts at h
    split at h
    · cases h
    · next s hs =>
      split at h
      · cases h
      · next ss' hss =>
        rw [← Except.ok.inj h, reprInt_ok hs, ih hss]
        rfl

theorem noDigit_of {r : Str} {c : Nat} (h : r.head? = some c) (hc : c < 48) : NoDigit r := by
  intro x hx
  rw [h] at hx
  cases hx
  omega

theorem intReads (n : Nat) : ReadsBack Literal.int natDec n := by
  intro r hr
  refine int_read n ?_
  intro c hc
  rcases hr with h | h | h <;> (rw [h] at hc; cases hc; omega)

theorem strReads {pr : Nat → Bool} {s : Str} (hs : IsStr s) : ReadsBack Literal.str (reprStr pr) s :=
  fun r _ => reprStr_read hs r

theorem reprStr_ne {pr : Nat → Bool} (s : Str) (c : Nat) (hc : c ≠ 39) (hc' : c ≠ 34) :
    reprStr pr s ≠ [] ∧ (reprStr pr s).head? ≠ some c := by
  refine ⟨by simp [reprStr], ?_⟩
  intro h
  have h : reprQuote s = c := Option.some.inj h
  have := reprQuote_or s
  omega

theorem host_read {env : Env} {pr : Nat → Bool} {u : Rec} (hu : PyRec u) {t : Str} (h : reprHost env pr u.host = .ok t) (r : Str)
    (hr : r.head? = some 44) : Literal.option Literal.host (t ++ r) = some (u.host, r) := by
  unfold reprHost at h
  split at h
  · next hh =>
    rw [← Except.ok.inj h, hh]
    exact option_none _ r
  · next s hh =>
    rw [← Except.ok.inj h, hh]
    refine option_some (reprStr_ne s 78 (by decide) (by decide)).2 (reprStr_ne s 78 (by decide) (by decide)).1 ?_
    unfold Literal.host
    rw [reprStr_read (hu.domain s hh)]
  · next n hh =>
    rw [reprInt_ok h, hh]
    obtain ⟨c, cs, e, h1, h2⟩ := natDec_cons n
    refine option_some (by rw [e]; intro hc; cases hc; omega) (natDec_ne_nil n) ?_
    unfold Literal.host
    have hstr : Literal.str (natDec n ++ r) = none := by rw [e]; exact str_head (by omega) (by omega)
    rw [hstr, int_read n (noDigit_of hr (by decide))]
  · next a hh =>
    split at h
    · cases h
    · next ss hss =>
      rw [← Except.ok.inj h, reprInts_ok a hss, hh]
      have hlen := hu.ipv6 a hh
      match a, hlen with
      | x :: y :: xs, _ =>
        have e : reprTuple ((x :: y :: xs).map natDec) ++ r = 40 :: (joinWith u!", " ((x :: y :: xs).map natDec) ++ u!")" ++ r) := rfl
        refine option_some (by intro hc; cases hc) (by intro hc; cases hc) ?_
        unfold Literal.host
        have h1 : Literal.str (reprTuple ((x :: y :: xs).map natDec) ++ r) = none := by rw [e]; exact str_head (by decide) (by decide)
        have h2 : Literal.int (reprTuple ((x :: y :: xs).map natDec) ++ r) = none := by rw [e]; exact int_head (by decide)
        rw [h1, h2, tuple_read fun z _ => intReads z]

theorem port_read {env : Env} {p : Option Nat} {t : Str} (h : reprPort env p = .ok t) (r : Str)
    (hr : r.head? = some 44) : Literal.option Literal.int (t ++ r) = some (p, r) := by
  unfold reprPort at h
  split at h
  · rw [← Except.ok.inj h]; exact option_none _ r
  · next n =>
    rw [reprInt_ok h]
    obtain ⟨c, cs, e, h1, h2⟩ := natDec_cons n
    exact option_some (by rw [e]; intro hc; cases hc; omega) (natDec_ne_nil n) (int_read n (noDigit_of hr (by decide)))

theorem opt_read {pr : Nat → Bool} {q : Option Str} (hq : ∀ s, q = some s → IsStr s) (r : Str) :
    Literal.option Literal.str (reprOpt pr q ++ r) = some (q, r) := by
  cases q with
  | none => exact option_none _ r
  | some s =>
    exact option_some (reprStr_ne s 78 (by decide) (by decide)).2 (reprStr_ne s 78 (by decide) (by decide)).1
      (reprStr_read (hq s rfl) r)

theorem path_read {pr : Nat → Bool} {p : Path} (h1 : ∀ l, p = .list l → ∀ s ∈ l, IsStr s) (h2 : ∀ s, p = .opaque s → IsStr s)
    (r : Str) : Literal.path (reprPath pr p ++ r) = some (p, r) := by
  unfold Literal.path
  cases p with
  | «opaque» s =>
    have e : reprPath pr (.opaque s) = reprStr pr s := rfl
    rw [e, reprStr_read (h2 s rfl)]
  | list l =>
    have e : reprPath pr (.list l) ++ r = 91 :: (joinWith u!", " (l.map (reprStr pr)) ++ u!"]" ++ r) := rfl
    have hn : Literal.str (reprPath pr (.list l) ++ r) = none := by rw [e]; exact str_head (by decide) (by decide)
    have el : reprPath pr (.list l) = reprList (l.map (reprStr pr)) := rfl
    rw [hn, el, list_read l (fun s hs => strReads (h1 l rfl s hs)) (fun s _ => reprStr_ne s 93 (by decide) (by decide))]

/-- C86 (partial: if it is returned). Reading the representation of a record gives the record. -/
theorem C86_record_partial (env : Env) (pr : Nat → Bool) (u : Rec) (hu : PyRec u) (t : Str) (h : u.repr env pr = .ok t) :
    Literal.record t = some u := by
  unfold Rec.repr at h
  split at h
  · cases h
  · next host hhost =>
    split at h
    · cases h
    · next port hport =>
      rw [← Except.ok.inj h]
      simp only [List.append_assoc]
      unfold Literal.record
      simp only [bind, Option.bind, text_read, reprStr_read hu.scheme, reprStr_read hu.username, reprStr_read hu.password]
      rw [host_read hu hhost _ rfl]
      simp only [text_read]
      rw [port_read hport _ rfl]
      simp only [text_read, path_read hu.segments hu.opaquePath, opt_read hu.query, opt_read hu.fragment]
      rfl

/-- C86. Reading the representation of a `URLSearchParams` object gives its pairs. -/
theorem C86_params (pr : Nat → Bool) (l : Params) (hl : ∀ p ∈ l, IsStr p.1 ∧ IsStr p.2) :
    Literal.params (spRepr pr l) = some l := by
  unfold spRepr Literal.params
  have hp : ∀ p ∈ l, ReadsBack Literal.pair (fun p => reprTuple [reprStr pr p.1, reprStr pr p.2]) p := by
    intro p hp r _
    have e : reprTuple [reprStr pr p.1, reprStr pr p.2] ++ r =
        u!"(" ++ (reprStr pr p.1 ++ (u!", " ++ (reprStr pr p.2 ++ (u!")" ++ r)))) := by
      simp [reprTuple, joinWith]
    unfold Literal.pair
    dsimp only
    rw [e]
    simp only [bind, Option.bind, text_read, reprStr_read (hl p hp).1, reprStr_read (hl p hp).2]
  simp only [List.append_assoc, bind, Option.bind, text_read]
  rw [list_read l hp (fun p _ => ⟨by simp [reprTuple], by simp [reprTuple]⟩)]
  rfl

/-- the numbers in a record -/
def NumberIn (u : Rec) (n : Nat) : Prop :=
  u.host = some (.ipv4 n) ∨ (∃ a, u.host = some (.ipv6 a) ∧ n ∈ a) ∨ u.port = some n

theorem reprInts_error {env : Env} (l : List Nat) (e : Err) :
    reprInts env l = .error e ↔ e = .valueError ∧ ∃ n ∈ l, strTooLong env n = true := by
  induction l with
  | nil => simp [reprInts]
  | cons n l ih =>
    unfold reprInts reprInt
    by_cases hn : strTooLong env n = true
    · rw [if_pos hn]
      constructor
      · intro h; exact ⟨(Except.error.inj h).symm, n, by simp, hn⟩
      · rintro ⟨rfl, -⟩; rfl
    · rw [if_neg hn]
      dsimp only
      have key : (match reprInts env l with
          | .error e => (.error e : Except Err (List Str))
          | .ok ss => .ok (natDec n :: ss)) = .error e ↔ reprInts env l = .error e := by
        cases reprInts env l <;> simp
      refine Iff.trans key ?_
      rw [ih]
      constructor
      · rintro ⟨h, m, hm, hl⟩; exact ⟨h, m, by simp [hm], hl⟩
      · rintro ⟨h, m, hm, hl⟩
        rcases List.mem_cons.1 hm with rfl | hm
        · exact absurd hl hn
        · exact ⟨h, m, hm, hl⟩

/-- C86. When the representation of a record raises: a number in it has more digits than CPython converts. -/
theorem C86_record_raises (env : Env) (pr : Nat → Bool) (u : Rec) (e : Err) :
    u.repr env pr = .error e ↔
      e = .valueError ∧ ∃ n, NumberIn u n ∧ 0 < env.maxStrDigits ∧ 10 ^ env.maxStrDigits ≤ n := by
  have hhost : ∀ e, reprHost env pr u.host = .error e ↔ e = .valueError ∧
      ∃ n, (u.host = some (.ipv4 n) ∨ ∃ a, u.host = some (.ipv6 a) ∧ n ∈ a) ∧ strTooLong env n = true := by
    intro e
    unfold reprHost
    cases hh : u.host with
    | none => simp
    | some x =>
      cases x with
      | str s => simp
      | ipv4 n =>
        dsimp only
        unfold reprInt
        by_cases hn : strTooLong env n = true
        · rw [if_pos hn]
          constructor
          · intro h; exact ⟨(Except.error.inj h).symm, n, .inl rfl, hn⟩
          · rintro ⟨rfl, -⟩; rfl
        · rw [if_neg hn]
          constructor
          · intro h; cases h
          · rintro ⟨-, m, h | ⟨a, h, -⟩, hm⟩
            · cases h; exact absurd hm hn
            · cases h
      | ipv6 a =>
        dsimp only
        have key : (match reprInts env a with
            | .error e => (.error e : Except Err Str)
            | .ok ss => .ok (reprTuple ss)) = .error e ↔ reprInts env a = .error e := by
          cases reprInts env a <;> simp
        refine Iff.trans key ?_
        rw [reprInts_error]
        refine and_congr_right fun _ => exists_congr fun m => ?_
        constructor
        · rintro ⟨h1, h2⟩; exact ⟨.inr ⟨a, rfl, h1⟩, h2⟩
        · rintro ⟨h | ⟨b, h, hm⟩, h2⟩
          · cases h
          · cases h; exact ⟨hm, h2⟩
  have hport : ∀ e, reprPort env u.port = .error e ↔ e = .valueError ∧ ∃ n, u.port = some n ∧ strTooLong env n = true := by
    intro e
    unfold reprPort
    cases hh : u.port with
    | none => simp
    | some n =>
      dsimp only
      unfold reprInt
      by_cases hn : strTooLong env n = true
      · rw [if_pos hn]
        constructor
        · intro h; exact ⟨(Except.error.inj h).symm, n, rfl, hn⟩
        · rintro ⟨rfl, -⟩; rfl
      · rw [if_neg hn]
        constructor
        · intro h; cases h
        · rintro ⟨-, m, h, hm⟩; cases h; exact absurd hm hn
  have main : u.repr env pr = .error e ↔ reprHost env pr u.host = .error e ∨
      (∃ t, reprHost env pr u.host = .ok t) ∧ reprPort env u.port = .error e := by
    unfold Rec.repr
    cases h1 : reprHost env pr u.host with
    | error e' => simp
    | ok t => cases h2 : reprPort env u.port <;> simp
  rw [main]
  constructor
  · rintro (h | ⟨-, h⟩)
    · obtain ⟨h1, n, h2, h3⟩ := (hhost e).1 h
      exact ⟨h1, n, h2.elim .inl fun h => .inr (.inl h), (strTooLong_iff n).1 h3⟩
    · obtain ⟨h1, n, h2, h3⟩ := (hport e).1 h
      exact ⟨h1, n, .inr (.inr h2), (strTooLong_iff n).1 h3⟩
  · rintro ⟨rfl, n, hn, hl⟩
    have hl := (strTooLong_iff n).2 hl
    cases hc : reprHost env pr u.host with
    | error e' =>
      have := ((hhost e').1 hc).1
      subst this
      exact .inl rfl
    | ok t =>
      refine .inr ⟨⟨t, rfl⟩, (hport _).2 ⟨rfl, n, ?_, hl⟩⟩
      rcases hn with h | h | h
      · have := (hhost .valueError).2 ⟨rfl, n, .inl h, hl⟩
        rw [hc] at this; cases this
      · have := (hhost .valueError).2 ⟨rfl, n, .inr h, hl⟩
        rw [hc] at this; cases this
      · exact h

/-! ### Objects -/

theorem ascii_isStr {s : Str} (h : ∀ c ∈ s, 32 ≤ c ∧ c ≤ 126) : IsStr s := fun c hc => by have := h c hc; omega

theorem host_ascii {env : Env} {m : Bool} {x : Host} (h : HostWF env m x) : ∀ c ∈ hostSerialize x, 32 ≤ c ∧ c ≤ 126 :=
  fun c hc => by have := h.print c hc; omega

theorem natDec_ascii (n : Nat) : ∀ c ∈ natDec n, 32 ≤ c ∧ c ≤ 126 := fun c hc => by
  have := digit_print (natDec_digits n c hc); omega

theorem pyRec_wf {env : Env} {k : Bool} {u : Rec} (h : WF k (HostWF env) u) : PyRec u where
  scheme := ascii_isStr fun c hc => by have := h.auth.scheme.print c hc; omega
  username := ascii_isStr fun c hc => by have := safeUserinfo_print (h.auth.user c hc); omega
  password := ascii_isStr fun c hc => by have := safeUserinfo_print (h.auth.pass c hc); omega
  domain := fun s hs => ascii_isStr (host_ascii (h.auth.host _ hs))
  ipv6 := fun a ha => (h.auth.host _ ha : IsV6 a).1
  segments := fun l hl s hs => ascii_isStr fun c hc => by
    have hp := h.path
    unfold PathWF at hp
    rw [hl] at hp
    have := safePath_print ((hp.1.segs s hs).chars c hc).1
    omega
  opaquePath := fun s hs => ascii_isStr fun c hc => by
    have hp := h.path
    unfold PathWF at hp
    rw [hs] at hp
    have := safeC0_print (hp.1.chars c hc).1
    omega
  query := fun s hs => ascii_isStr fun c hc => by have := querySafe_print (h.query s hs c hc); omega
  fragment := fun s hs => ascii_isStr fun c hc => by have := safeFragment_print (h.frag s hs c hc); omega

theorem pathname_ascii {env : Env} {k : Bool} {u : Rec} (h : WF k (HostWF env) u) :
    ∀ c ∈ serializePath u.path, 32 ≤ c ∧ c ≤ 126 := by
  intro c hc
  cases hp : u.path with
  | list l => have := h.listPath_print hp c hc; omega
  | «opaque» s =>
    have hw := h.path
    unfold PathWF at hw
    rw [hp] at hw hc
    exact safeC0_print (hw.1.chars c hc).1

theorem origin_text {env : Env} {k : Bool} {u : Rec} (h : WF k (HostWF env) u) {x : Origin} (hx : u.originNonBlob = some x) :
    ∀ c ∈ x.toStr, 32 ≤ c ∧ c ≤ 126 := by
  unfold Rec.originNonBlob at hx
  split at hx
  · cases hx
    intro c hc
    unfold Origin.toStr at hc
    simp only [List.mem_append] at hc
    rcases hc with ((hc | hc) | hc) | hc
    · have := h.auth.scheme.print c hc; omega
    · simp only [List.mem_cons, List.not_mem_nil, or_false] at hc; omega
    · split at hc
      · cases hc
      · next y hy => exact host_ascii (h.auth.host y hy) c hc
    · split at hc
      · cases hc
      · rcases List.mem_cons.1 hc with hc | hc
        · omega
        · exact natDec_ascii _ c hc
  · cases hx

theorem origin_ascii {env : Env} (hi : IdnaOK env) {o : URLObj} (h : Reached env o) {t : Str} (ht : o.origin env = .ok t) :
    ∀ c ∈ t, 32 ≤ c ∧ c ≤ 126 := by
  have hw := reached_wf hi h
  have key : ∀ x, o.url.origin env.quiet = .ok (some x) → ∀ c ∈ x.toStr, 32 ≤ c ∧ c ≤ 126 := by
    intro x hx
    unfold Rec.origin at hx
    split at hx
    · split at hx
      · split at hx
        · next p hp =>
          split at hx
          · have hpw : WF true (HostWF env.quiet) p :=
              Parsed.wf (hostSpec_wf hi.quiet) (.alone (e := .utf8) (ascii_isStr (pathname_ascii hw)) trivial hp)
            exact origin_text hpw (Except.ok.inj hx)
          · cases hx
        · split at hx <;> cases hx
      · cases hx
    · exact origin_text hw (Except.ok.inj hx)
  unfold URLObj.origin at ht
  split at ht
  · cases ht; decide
  · next x hx => cases ht; exact key x hx
  · cases ht

/-- C86. The record of every URL object meets the hypothesis of `C86_record_partial`. -/
theorem C86_reached (env : Env) (hi : IdnaOK env) (o : URLObj) (h : Reached env o) : PyRec o.url := pyRec_wf (reached_wf hi h)

/-- C86 (partial: if it is returned). Reading the representation of a URL object gives its attributes; only the getter of `origin`
can raise, and then the representation does. -/
theorem C86_url_partial (env : Env) (hi : IdnaOK env) (pr : Nat → Bool) (o : URLObj) (h : Reached env o) :
    (∀ t, o.repr env pr = .ok t → ∃ origin, o.origin env = .ok origin ∧
      Literal.url t = some [o.href, origin, o.protocol, o.username, o.password, o.host, o.hostname, o.port, o.pathname, o.search,
        o.hash]) ∧
    (∀ e, o.repr env pr = .error e ↔ o.origin env = .error e) := by
  have hw := reached_wf hi h
  have hrec := pyRec_wf hw
  constructor
  · intro t ht
    unfold URLObj.repr at ht
    split at ht
    · cases ht
    · next origin ho =>
      refine ⟨origin, ho, ?_⟩
      have e1 : IsStr o.href := ascii_isStr fun c hc => by
        have := hw.hrefOK.1 c hc
        unfold Spec.Printable at this
        omega
      have e2 : IsStr origin := ascii_isStr (origin_ascii hi h ho)
      have e3 : IsStr o.protocol := ascii_isStr fun c hc => by
        rcases List.mem_append.1 hc with hc | hc
        · have := hw.auth.scheme.print c hc; omega
        · simp only [List.mem_cons, List.not_mem_nil, or_false] at hc; omega
      have e4 : IsStr o.hostname := ascii_isStr fun c hc => by
        unfold URLObj.hostname Rec.serializeHost at hc
        split at hc
        · cases hc
        · next y hy => exact host_ascii (hw.auth.host y hy) c hc
      have e5 : IsStr o.host := ascii_isStr fun c hc => by
        unfold URLObj.host at hc
        split at hc
        · cases hc
        · next y hy =>
          rcases List.mem_append.1 hc with hc | hc
          · exact host_ascii (hw.auth.host y hy) c hc
          · unfold Rec.serializePort at hc
            split at hc
            · cases hc
            · rcases List.mem_cons.1 hc with hc | hc
              · omega
              · exact natDec_ascii _ c hc
      have e6 : IsStr o.port := ascii_isStr fun c hc => by
        unfold URLObj.port at hc
        split at hc
        · cases hc
        · exact natDec_ascii _ c hc
      have e7 : IsStr o.pathname := ascii_isStr (pathname_ascii hw)
      have e8 : IsStr o.search := by
        unfold URLObj.search
        intro c hc
        split at hc
        · cases hc
        · next q hq =>
          split at hc
          · cases hc
          · rcases List.mem_cons.1 hc with hc | hc
            · omega
            · exact hrec.query q hq c hc
      have e9 : IsStr o.hash := by
        unfold URLObj.hash
        intro c hc
        split at hc
        · cases hc
        · next q hq =>
          split at hc
          · cases hc
          · rcases List.mem_cons.1 hc with hc | hc
            · omega
            · exact hrec.fragment q hq c hc
      rw [← Except.ok.inj ht]
      have step : ∀ (name a s r : Str) (names : List Str) (s' : Str) (xs : List Str), IsStr s →
          Literal.keywords (a :: names) r = some (xs, s') →
          Literal.keywords (name :: a :: names) (name ++ u!"=" ++ (reprStr pr s ++ (u!", " ++ r))) = some (s :: xs, s') := by
        intro name a s r names s' xs hs hr
        simp only [Literal.keywords, bind, Option.bind, text_read, reprStr_read hs, hr]
      have last : ∀ (name s r : Str), IsStr s →
          Literal.keywords [name] (name ++ u!"=" ++ (reprStr pr s ++ r)) = some ([s], r) := by
        intro name s r hs
        simp only [Literal.keywords, bind, Option.bind, text_read, reprStr_read hs]
      have k : Literal.keywords [u!"href", u!"origin", u!"protocol", u!"username", u!"password", u!"host", u!"hostname", u!"port",
          u!"pathname", u!"search", u!"hash"] _ = some (_, u!")>") :=
        step u!"href" _ o.href _ _ _ _ e1 <| step u!"origin" _ origin _ _ _ _ e2 <| step u!"protocol" _ o.protocol _ _ _ _ e3 <|
        step u!"username" _ o.username _ _ _ _ hrec.username <| step u!"password" _ o.password _ _ _ _ hrec.password <|
        step u!"host" _ o.host _ _ _ _ e5 <| step u!"hostname" _ o.hostname _ _ _ _ e4 <| step u!"port" _ o.port _ _ _ _ e6 <|
        step u!"pathname" _ o.pathname _ _ _ _ e7 <| step u!"search" _ o.search _ _ _ _ e8 <| last u!"hash" o.hash u!")>" e9
      simp only [List.append_assoc, List.cons_append, List.nil_append] at k ⊢
      unfold Literal.url
      have ht : ∀ r, Literal.text u!"<URL(" (60 :: 85 :: 82 :: 76 :: 40 :: r) = some r := text_read u!"<URL("
      rw [ht]
      simp only [bind, Option.bind]
      rw [k]
      rfl
  · intro e
    unfold URLObj.repr
    cases o.origin env <;> simp

/-- C86 is false in one respect: for a URL like "http://0100...0.256" (C11) the representation of the record raises ValueError,
and for a blob URL with a long port in its path (C56) that of the URL does. -/
theorem C86_false_valueError (env : Env) (he : EnvOK env) (hi : IdnaOK env) (h0 : 0 < env.maxStrDigits) (pr : Nat → Bool) :
    (∃ o, Reached env o ∧ o.url.repr env pr = .error .valueError) ∧
    (∃ o, Reached env o ∧ o.repr env pr = .error .valueError) := by
  constructor
  · let k := 2 * env.maxStrDigits + 2
    have hp := hugeHost_parse (env := env.quiet) he hi.quiet rfl (k := k) (by omega)
    let u : Rec := { scheme := u!"http", host := some (.ipv4 (256 + 8 ^ k * 256 ^ 3)), path := .list [[]] }
    refine ⟨⟨u, spOfQuery none⟩, .new (s := u!"http://" ++ hugeHost k) ?_ ?_, ?_⟩
    · intro c hc
      rcases List.mem_append.1 hc with hc | hc
      · exact (by decide : ∀ c ∈ u!"http://", c ≤ 0x10FFFF) c hc
      · rcases hugeHost_chars k c hc with h | h
        · rw [isDigit_iff] at h; omega
        · omega
    · unfold URLObj.new
      show (match (parseUrl env.quiet (u!"http://" ++ hugeHost k)).res with | .ok r => _ | .error e => _) = _
      rw [hp]
    · rw [C86_record_raises]
      refine ⟨rfl, _, .inl rfl, h0, ?_⟩
      have h1 : 10 ^ env.maxStrDigits ≤ 64 ^ env.maxStrDigits := Nat.pow_le_pow_left (by decide) _
      have h2 : 64 ^ env.maxStrDigits = 8 ^ (2 * env.maxStrDigits) := by rw [Nat.pow_mul]
      have h3 : 8 ^ (2 * env.maxStrDigits) ≤ 8 ^ k := Nat.pow_le_pow_right (by decide) (by omega)
      have h4 : 8 ^ k ≤ 8 ^ k * 256 ^ 3 := Nat.le_mul_of_pos_right _ (by decide)
      omega
  · have hl := C56_false_valueError env.quiet h0
    have hw : WF true (HostWF env.quiet) (longBlob env.quiet) :=
      Parsed.wf (hostSpec_wf hi.quiet) (longBlob_parsed env.quiet he hi.quiet)
    have hp : (parseUrl env.quiet (longBlob env.quiet).serialize).res = .ok (longBlob env.quiet) :=
      basicParse_serialize (env := env.quiet) he hi.quiet hw
    have hr : Reached env ⟨longBlob env.quiet, spOfQuery none⟩ := by
      refine .new (s := (longBlob env.quiet).serialize) (ascii_isStr fun c hc => ?_) ?_
      · have := hw.hrefOK.1 c hc
        unfold Spec.Printable at this
        omega
      · unfold URLObj.new
        show (match (parseUrl env.quiet (longBlob env.quiet).serialize).res with | .ok r => _ | .error e => _) = _
        rw [hp]
        rfl
    refine ⟨_, hr, ((C86_url_partial env hi pr _ hr).2 _).2 ?_⟩
    unfold URLObj.origin
    dsimp only
    rw [hl.2.1]

/-! Concrete cases: a quote and a backslash, a character that is not printable, and each kind of host. -/

example : reprStr (fun _ => true) u!"it's" = u!"\"it's\"" := by decide
example : reprStr (fun _ => true) u!"'\"\\" = u!"'\\'\"\\\\'" := by decide
example : reprStr (fun _ => false) [0xe9, 0x20ac, 0x1f600, 10, 0] = u!"'\\xe9\\u20ac\\U0001f600\\n\\x00'" := by decide
example : reprStr (· == 0xe9) [0xe9] = [39, 0xe9, 39] := by decide
example : Literal.str u!"'\\xe9\\'' rest" = some ([0xe9, 39], u!" rest") := by decide

def exShown : Rec :=
  { scheme := u!"http", username := u!"u", host := some (.ipv6 [1, 0, 0, 0, 0, 0, 0, 65535]), port := some 81,
    path := .list [u!"a", u!"'"], fragment := some [] }

example : exShown.repr exEnv (fun _ => true) = .ok
    (u!"URLRecord(scheme='http', username='u', password='', host=(1, 0, 0, 0, 0, 0, 0, 65535), port=81, " ++
      u!"path=['a', \"'\"], query=None, fragment='')") := by decide
example : PyRec exShown := C86_reached exEnv exEnv_idna ⟨exShown, []⟩
  (.new (s := u!"http://u@[1::ffff]:81/a/'#") (by decide) (by decide +kernel))
example : Literal.record u!"URLRecord(scheme='x', username='', password='', host=3, port=None, path=[], query='q', fragment=None)" =
    some { scheme := u!"x", host := some (.ipv4 3), path := .list [], query := some u!"q" } := by decide +kernel
example : spRepr (fun _ => true) [(u!"a", u!"1"), (u!"b", [])] = u!"URLSearchParams([('a', '1'), ('b', '')])" := by decide +kernel
example : exStart.repr exEnv (fun _ => true) = .ok
    (u!"<URL(href='http://h/a?x=1#f', origin='http://h', protocol='http:', username='', password='', host='h', " ++
      u!"hostname='h', port='', pathname='/a', search='?x=1', hash='#f')>") := by decide +kernel
example : ∃ origin, exStart.origin exEnv = .ok origin := ⟨u!"http://h", by decide⟩
example : 0 < exEnv.maxStrDigits := by decide +kernel

end Urlstd.Props
