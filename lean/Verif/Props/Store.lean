/-
C70: programs that use several `URL`, `URLSearchParams` and `URLRecord` objects behave as if these were values.

`Verif/Store.lean` executes a program on objects with identities; `Verif/Spec/Store.lean` executes it on values. The
theorems below hold for every program, of any length, with any number of objects.
-/
import Verif.Lemmas.Store
import Verif.Spec.Example

set_option linter.unusedVariables false

namespace Urlstd.Props
open Urlstd.Spec

/-- the objects after a program -/
def after (env : Env) (cs : List Cmd) : Store := (Store.empty.run env cs).2

theorem after_rel (env : Env) (cs : List Cmd) : Rel (after env cs) (World.empty.run env cs).2 := (run_rel env cs Rel.empty).2

/-- Every command of every program gives the same result on objects as on values (the same exception or none), and at
the end every variable has the same value. -/
theorem C70_values (env : Env) (cs : List Cmd) :
    (Store.empty.run env cs).1 = (World.empty.run env cs).1 ∧
    SameView (Store.empty.run env cs).2 (World.empty.run env cs).2 :=
  let h := run_rel env cs Rel.empty
  ⟨h.1, h.2.view⟩

/-- An operation on one URL leaves every other URL, every record, and every `URLSearchParams` except its own
`search_params` as they were; no variable is assigned. -/
theorem C70_frame (env : Env) (cs : List Cmd) (i : Nat) (op : Op) :
    let S := after env cs
    let S' := (S.exec env (.urlOp i op)).2
    (∀ j : Nat, j ≠ i → (S'.urls[j]?).map S'.urlValue = (S.urls[j]?).map S.urlValue) ∧
    S'.records.map S'.record = S.records.map S.record ∧
    S'.params = S.params ∧
    ∀ (j q : Nat), S.params[j]? = some q → (∀ x, S.urls[i]? = some x → x.query ≠ q) → (S'.query q).list = (S.query q).list := by
  intro S S'
  have h : Rel S (World.empty.run env cs).2 := after_rel env cs
  generalize hW : (World.empty.run env cs).2 = W at h
  have hS' : S' = (S.exec env (.urlOp i op)).2 := rfl
  clear_value S S'
  subst hS'
  unfold Store.exec
  dsimp only
  cases hx : S.urls[i]? with
  | none => exact ⟨fun j hj => rfl, rfl, rfl, fun j q _ _ => rfl⟩
  | some x =>
    obtain ⟨_, r⟩ := urlOp_rel env h hx op
    refine ⟨fun j hj => ?_, ?_, urlOp_params env S i x op, fun j q hj hq => ?_⟩
    · dsimp only
      rw [← List.getElem?_map, ← List.getElem?_map, r.urls, h.urls]
      exact List.getElem?_set_ne (Ne.symm hj)
    · exact r.records.trans h.records.symm
    · exact urlOp_query env S i x op q (Ne.symm (hq x rfl))

/-- Making an object leaves all variables that exist as they were, also the one given as base. -/
theorem C70_new (env : Env) (cs : List Cmd) (c : Cmd)
    (hc : (∃ s b, c = .url s b) ∨ (∃ s b, c = .record s b) ∨ (∃ p, c = .params p) ∨ ∃ i, c = .searchParams i) :
    let S := after env cs
    let S' := (S.exec env c).2
    S.urls.map S.urlValue <+: S'.urls.map S'.urlValue ∧ S.records.map S.record <+: S'.records.map S'.record ∧
    (S.params.map fun q => (S.query q).list) <+: (S'.params.map fun q => (S'.query q).list) := by
  intro S S'
  have h : Rel S (World.empty.run env cs).2 := after_rel env cs
  generalize hW : (World.empty.run env cs).2 = W at h
  have r : Rel S' (W.exec env c).2 := (exec_rel env h c).2
  clear_value S S'
  rw [h.view.urls, h.view.records, h.view.params, r.view.urls, r.view.records, r.view.params]
  obtain ⟨h1, h2, h3⟩ := world_new env W c hc
  refine ⟨h1, h2, ?_⟩
  obtain ⟨m, hm⟩ := h3
  refine ⟨m.map (W.exec env c).2.list, ?_⟩
  rw [← hm, List.map_append]
  congr 1
  refine List.map_congr_left fun p hp => ?_
  obtain ⟨j, hj⟩ := mem_at hp
  cases p with
  | own l k => rfl
  | ofUrl i =>
    have hlt : j < S.params.length := by rw [h.parLen]; exact get_lt hj
    obtain ⟨x, hx, _⟩ := h.par j _ _ (List.getElem?_eq_getElem hlt) hj
    have hw := h.urlAt hx
    unfold World.list
    dsimp only
    obtain ⟨m', hm'⟩ := h1
    rw [← hm', get_append hw, hw]

/-- `p = x.search_params` is live: after any further commands, `href` assignments included, `p` is the `search_params` of
`x`, so it has the pairs of that URL and its methods are methods of that URL. -/
theorem C70_live (env : Env) (cs ds : List Cmd) (i : Nat) (hi : i < (after env cs).urls.length) (j : Nat)
    (hj : j = (after env cs).params.length) :
    let S := after env (cs ++ .searchParams i :: ds)
    ∃ x, S.urls[i]? = some x ∧ S.params[j]? = some x.query ∧ (S.query x.query).url = some x.url ∧
      ∀ op, S.exec env (.spOp j op) = S.exec env (.urlOp i (opOf op)) := by
  intro S
  have h : Rel S (World.empty.run env (cs ++ .searchParams i :: ds)).2 := after_rel env _
  have h0 := after_rel env cs
  have hp : (World.empty.run env (cs ++ .searchParams i :: ds)).2.params[j]? = some (.ofUrl i) := by
    rw [world_run_append]
    refine world_handle env ds _ j i ?_
    have hw : ∃ o, (World.empty.run env cs).2.urls[i]? = some o := ⟨_, h0.urlAt (List.getElem?_eq_getElem hi)⟩
    obtain ⟨o, hw⟩ := hw
    unfold World.exec
    dsimp only
    rw [hw]
    show (_ ++ [_])[j]? = _
    rw [hj, h0.parLen, List.getElem?_append_right (Nat.le_refl _), Nat.sub_self]; rfl
  clear_value S
  have hlt : j < S.params.length := by rw [h.parLen]; exact get_lt hp
  obtain ⟨x, hx, e⟩ := h.par j _ _ (List.getElem?_eq_getElem hlt) hp
  refine ⟨x, hx, by rw [e]; exact List.getElem?_eq_getElem hlt, (h.urlOK i x hx).2.2, fun op => ?_⟩
  unfold Store.exec
  dsimp only
  rw [hx, List.getElem?_eq_getElem hlt, ← e]
  cases op <;> rfl

/-- Records do not share path lists, whatever the program. -/
theorem C70_lists (env : Env) (cs : List Cmd) (r r' : Nat) (c c' : RecObj) (a : Nat)
    (h : (after env cs).recs[r]? = some c) (h' : (after env cs).recs[r']? = some c')
    (e : c.path = .obj a) (e' : c'.path = .obj a) : r = r' :=
  (after_rel env cs).sep.inj r r' c c' a h h' e e'

/-! ### A concrete program -/

/-- Two URLs, the second parsed with the first as base; changes to either, `href` included, through the variable for
`search_params` too; a record used as base, and a `URLSearchParams` that writes to it. -/
def exProgram : List Cmd :=
  [.url u!"https://a/x/y?q=1" .none, .searchParams 0, .url u!"?r" (.var 0), .urlOp 1 (.pathname u!"/z/w"),
   .urlOp 0 (.href u!"http://b/?k=v"), .spOp 0 (.append u!"n" (.str u!"m")), .urlOp 0 (.href u!"http://["),
   .record u!"s:/p/q" .none, .record u!"?t=1" (.var 0), .params (.record 1), .spOp 1 (.append u!"n" (.str u!"m")),
   .params (.params 0), .spOp 2 .sort]

example :
    (((after exEnv exProgram).urls.map fun x => ((after exEnv exProgram).urlValue x).href) =
      [u!"http://b/?k=v&n=m", u!"https://a/z/w?r"]) ∧
    ((after exEnv exProgram).records.map fun r => ((after exEnv exProgram).record r).serialize) =
      [u!"s:/p/q", u!"s:/p/q?t=1&n=m"] ∧
    ((after exEnv exProgram).params.map fun q => ((after exEnv exProgram).query q).list) =
      [[(u!"k", u!"v"), (u!"n", u!"m")], [(u!"t", u!"1"), (u!"n", u!"m")], [(u!"k", u!"v"), (u!"n", u!"m")]] := by
  decide +kernel

/-- the `href` assignment that fails raises an exception -/
example : ((Store.empty.run exEnv exProgram).1.map fun r => match r with | .ok _ => true | .error _ => false) =
    [true, true, true, true, true, true, false, true, true, true, true, true, true] := by decide +kernel

/-- the hypothesis of `C70_live` is met by the first command, with the rest of the program after it -/
example : 0 < (after exEnv (exProgram.take 1)).urls.length := by decide +kernel

end Urlstd.Props
