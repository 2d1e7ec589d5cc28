/-
C114: how far the attributes determine a URL.
-/
import Verif.Props.Generic

namespace Urlstd.Props

open Spec.Rfc

/-- eight attributes agree -/
def SameAttributes (a b : URLObj) : Prop :=
  a.protocol = b.protocol ∧ a.username = b.username ∧ a.password = b.password ∧ a.hostname = b.hostname ∧ a.port = b.port ∧
    a.pathname = b.pathname ∧ a.search = b.search ∧ a.hash = b.hash

/-- what `search` and `hash` show -/
private def marked (c : Nat) (a : Option Str) : Str :=
  match a with | none => [] | some q => if q.isEmpty then [] else c :: q

private theorem marked_eq {c : Nat} {a b : Option Str} (hn : a = none ↔ b = none)
    (h : marked c a = marked c b) : a = b := by
  unfold marked at h
  cases a with
  | none => exact (hn.1 rfl).symm
  | some q =>
    cases b with
    | none => cases hn.2 rfl
    | some r => cases q <;> cases r <;> simp_all

private theorem port_eq {a b : Option Nat}
    (h : (match a with | none => [] | some p => natDec p) = (match b with | none => [] | some p => natDec p)) : a = b := by
  cases a with
  | none =>
    cases b with
    | none => rfl
    | some p => exact absurd h.symm (natDec_ne_nil p)
  | some n =>
    cases b with
    | none => exact absurd h (natDec_ne_nil n)
    | some p => exact congrArg some (natDec_injective h)

private theorem serialize_of_attributes {u v : Rec} (h1 : u.scheme = v.scheme) (h2 : u.username = v.username) (h3 : u.password = v.password)
    (h4 : u.host.map hostSerialize = v.host.map hostSerialize) (h5 : u.port = v.port) (h6 : writtenPath u = writtenPath v)
    (h7 : u.query = v.query) (h8 : u.fragment = v.fragment) : u.serialize = v.serialize := by
  have form : ∀ w : Rec, w.serialize = w.scheme ++ u!":" ++
      (match w.host.map hostSerialize with
        | some t => u!"//" ++ w.serializeCredentials ++ t ++ w.serializePort
        | none => []) ++ writtenPath w ++
      (match w.query with | some q => c!"?" :: q | none => []) ++ (match w.fragment with | some f => c!"#" :: f | none => []) := by
    intro w
    unfold Rec.serialize writtenPath
    cases w.host <;> simp only [Option.map_none, Option.map_some, List.append_assoc] <;> cases w.query <;> cases w.fragment <;> rfl
  rw [form u, form v]
  unfold Rec.serializeCredentials Rec.includesCredentials Rec.serializePort
  rw [h1, h2, h3, h4, h5, h6, h7, h8]

/-- C114. Two URLs, whatever their past, are equal if and only if these eight attributes agree, and with them whether there is a host, a
query and a fragment at all: the attributes do not tell an empty one from an absent one. -/
theorem C114_exact (env : Env) (hi : IdnaOK env) (o o' : URLObj) (h : Reached env o) (h' : Reached env o') :
    o.href = o'.href ↔ SameAttributes o o' ∧ (o.url.host = none ↔ o'.url.host = none) ∧
      (o.url.query = none ↔ o'.url.query = none) ∧ (o.url.fragment = none ↔ o'.url.fragment = none) := by
  have s := C85_split env hi o h
  have s' := C85_split env hi o' h'
  have e : split o.href = _ := split_serialize (reached_wf hi h)
  have e' : split o'.href = _ := split_serialize (reached_wf hi h')
  constructor
  · intro he
    obtain ⟨a1, a2, a3, -, a5, a6, a7, a8, a9, -⟩ := C85_href_determines env hi o o' h h' he
    refine ⟨⟨a1, a2, a3, a5, a6, a7, a8, a9⟩, ?_, ?_, ?_⟩
    · have k := s.2.2.1
      rw [he, s'.2.2.1] at k
      cases hh : o.url.host <;> cases hh' : o'.url.host <;> rw [hh, hh'] at k <;> simp_all
    · rw [← s.2.2.2.2.1, ← s'.2.2.2.2.1, he]
    · rw [← s.2.2.2.2.2, ← s'.2.2.2.2.2, he]
  · rintro ⟨⟨a1, a2, a3, a4, a5, a6, a7, a8⟩, hh, hq, hf⟩
    have w : writtenPath o.url = writtenPath o'.url := by
      have k := s.2.2.2.1
      have k' := s'.2.2.2.1
      rw [e] at k
      rw [e'] at k'
      have k : writtenPath o.url = _ := k
      have k' : writtenPath o'.url = _ := k'
      rw [k, k', a6]
      by_cases hn : o.url.host = none
      · rw [hn, hh.1 hn]
      · rw [if_neg (fun c => hn c.1), if_neg (fun c => hn (hh.2 c.1))]
    refine serialize_of_attributes (List.append_cancel_right a1) a2 a3 ?_ (port_eq a5) w (marked_eq (c := c!"?") hq a7)
      (marked_eq (c := c!"#") hf a8)
    unfold URLObj.hostname Rec.serializeHost at a4
    cases x : o.url.host with
    | none => rw [hh.1 x]
    | some g =>
      cases y : o'.url.host with
      | none => rw [hh.2 y] at x; cases x
      | some g' =>
        rw [x, y] at a4
        exact congrArg some a4

/-- the URLs of two texts -/
private def urlOf (s : Str) : URLObj := match URLObj.new exEnv s with | .ok o => o | .error _ => ⟨{}, []⟩

/-- C114. Without these conditions it is false: for each of the three there are URLs that agree in all attributes and are not equal. -/
theorem C114_false : ∀ p ∈ [(u!"a:/x", u!"a:///x"), (u!"http://h/", u!"http://h/?"), (u!"http://h/", u!"http://h/#")],
    ∃ o o', URLObj.new exEnv p.1 = .ok o ∧ URLObj.new exEnv p.2 = .ok o' ∧ o.href ≠ o'.href ∧ o.protocol = o'.protocol ∧
      o.username = o'.username ∧ o.password = o'.password ∧ o.hostname = o'.hostname ∧ o.port = o'.port ∧ o.pathname = o'.pathname ∧
      o.search = o'.search ∧ o.hash = o'.hash := by
  intro p hp
  simp only [List.mem_cons, List.not_mem_nil, or_false] at hp
  rcases hp with rfl | rfl | rfl
  · exact ⟨urlOf u!"a:/x", urlOf u!"a:///x", by decide +kernel⟩
  · exact ⟨urlOf u!"http://h/", urlOf u!"http://h/?", by decide +kernel⟩
  · exact ⟨urlOf u!"http://h/", urlOf u!"http://h/#", by decide +kernel⟩

example : (urlOf u!"http://h/a?b").href = (urlOf u!"http:\\h/./a?b").href :=
  (C114_exact exEnv exEnv_idna _ _ (.new (s := u!"http://h/a?b") (by decide) (by decide +kernel))
    (.new (s := u!"http:\\h/./a?b") (by decide) (by decide +kernel))).2 (by unfold SameAttributes; decide +kernel)

end Urlstd.Props
