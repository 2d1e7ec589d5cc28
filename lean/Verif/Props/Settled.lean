/-
C109: which searches survive an operation on search_params that changes nothing.
-/
import Verif.Props.History
import Verif.Props.SearchOps

namespace Urlstd.Props

open Spec (IsScalarStr urlencodedSerialize urlencodedKeep)

/-- the search is empty, or "?" and what the application/x-www-form-urlencoded serializer, with "~" unescaped (C09), makes of some pairs -/
def FormSearch (s : Str) : Prop :=
  s = [] ∨ ∃ l : List (Str × Str), l ≠ [] ∧ (∀ p ∈ l, IsScalarStr p.1 ∧ IsScalarStr p.2) ∧
    s = u!"?" ++ urlencodedSerialize (fun b => urlencodedKeep b || b == c!"~") l

/-- an operation on `search_params` -/
def ParamsOp (op : Op) : Prop := match op with | .spAppend .. | .spDelete .. | .spSet .. | .spSort => True | _ => False

private theorem serialize_eq {l : List (Str × Str)} (h : ∀ p ∈ l, IsScalarStr p.1 ∧ IsScalarStr p.2) :
    urlencodedSerialize (fun b => urlencodedKeep b || b == c!"~") l = urlencode l :=
  (C09_urlencode_exact l fun p hp => ⟨(h p hp).1.isStr, (h p hp).2.isStr⟩).symm

private theorem reached_scalar {env : Env} {o : URLObj} (h : Reached env o) : ∀ p ∈ o.params, IsScalarStr p.1 ∧ IsScalarStr p.2 :=
  fun p hp => (h.objOK (hostSpec_true env.quiet)).scalar p hp

/-- "http://h/?a=1&b=+" -/
private def plainSearch : URLObj :=
  ⟨{ scheme := u!"http", host := some (.str u!"h"), path := .list [[]], query := some u!"a=1&b=+" }, [(u!"a", u!"1"), (u!"b", u!" ")]⟩

private theorem plainSearch_reached : Reached exEnv plainSearch := .new (s := u!"http://h/?a=1&b=+") (by decide) (by decide +kernel)

/-- "http://h/?a" -/
private def bareSearch : URLObj :=
  ⟨{ scheme := u!"http", host := some (.str u!"h"), path := .list [[]], query := some u!"a" }, [(u!"a", [])]⟩

private theorem bareSearch_reached : Reached exEnv bareSearch := .new (s := u!"http://h/?a") (by decide) (by decide +kernel)

/-- C109. After an operation on `search_params`, `search` is as before exactly if the pairs are as before and `search` was in the form that
the serializer produces. -/
theorem C109_exact (env : Env) (o : URLObj) (h : Reached env o) (op : Op) (hop : ParamsOp op) (hstr : op.IsStr) :
    (applyOp env o op).2.search = o.search ↔ (applyOp env o op).2.params = o.params ∧ FormSearch o.search := by
  have hp := C48_params_of_search env o h
  have hp' := C48_params_of_search env _ (.op h hstr)
  constructor
  · intro e
    have hsame : (applyOp env o op).2.params = o.params := by rw [hp', hp, e]
    refine ⟨hsame, ?_⟩
    rw [C48_search_of_params env o op hop, hsame] at e
    by_cases h0 : o.params = []
    · rw [if_pos h0] at e; exact .inl e.symm
    · rw [if_neg h0] at e
      exact .inr ⟨o.params, h0, reached_scalar h, by rw [serialize_eq (reached_scalar h), e]⟩
  · rintro ⟨hsame, e | ⟨l, hl, hs, e⟩⟩
    · rw [C48_search_of_params env o op hop, hsame, hp, e]
      rfl
    · rw [serialize_eq hs] at e
      have : o.params = l := by
        rw [hp, e]
        exact C07_parse_qsl_urlencode_scalar l hs
      rw [C48_search_of_params env o op hop, hsame, this, if_neg hl, e]

/-- "?a=1&b=+" is in that form and sorted -/
example : (applyOp exEnv plainSearch .spSort).2.search = plainSearch.search :=
  (C109_exact exEnv plainSearch plainSearch_reached .spSort trivial trivial).2
    ⟨by decide +kernel, .inr ⟨[(u!"a", u!"1"), (u!"b", u!" ")], by decide, by unfold IsScalarStr; decide, by decide +kernel⟩⟩

/-- C109. After any operation on `search_params` the search is in that form, so that further operations that leave the pairs as they are
do not change it again. -/
theorem C109_settled (env : Env) (o : URLObj) (h : Reached env o) (op : Op) (hop : ParamsOp op) (hstr : op.IsStr) :
    FormSearch (applyOp env o op).2.search := by
  have h' : Reached env (applyOp env o op).2 := .op h hstr
  rw [C48_search_of_params env o op hop]
  split
  · exact .inl rfl
  · next h0 => exact .inr ⟨_, h0, reached_scalar h', by rw [serialize_eq (reached_scalar h')]⟩

/-- C109. A search that is not in that form is changed by every operation, whatever it does to the pairs. -/
theorem C109_changed (env : Env) (o : URLObj) (h : Reached env o) (op : Op) (hop : ParamsOp op) (hstr : op.IsStr)
    (hf : ¬ FormSearch o.search) : (applyOp env o op).2.search ≠ o.search :=
  fun e => hf ((C109_exact env o h op hop hstr).1 e).2

/-- "?a" is not in that form: deleting a parameter that is not there makes it "?a=" -/
example : (applyOp exEnv bareSearch (.spDelete u!"zz" none)).2.search = u!"?a=" ∧ ¬ FormSearch bareSearch.search := by
  have e : (applyOp exEnv bareSearch (.spDelete u!"zz" none)).2.search = u!"?a=" := by decide +kernel
  refine ⟨e, fun hf => ?_⟩
  have := (C109_exact exEnv bareSearch bareSearch_reached (.spDelete u!"zz" none) trivial ⟨by decide, by simp⟩).2 ⟨by decide +kernel, hf⟩
  rw [e] at this
  exact absurd this (by decide)

example : FormSearch (applyOp exEnv bareSearch (.spDelete u!"zz" none)).2.search :=
  C109_settled exEnv bareSearch bareSearch_reached _ trivial ⟨by decide, by simp⟩

end Urlstd.Props
