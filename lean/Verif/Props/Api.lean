/-
Property C67: the setters of `URL` and the methods of `URLSearchParams`, and the standard's.
-/
import Verif.Lemmas.ApiHost
import Verif.Props.History
import Verif.Props.HostParser

namespace Urlstd.Props

open Spec (IsStr IsScalarStr Performs RegularOp opLength OpAsks RegularHost hostParser)

/-- "foo://h:0/" -/
def exPortZero : URLObj := ⟨{ scheme := u!"foo", host := some (.str u!"h"), port := some 0, path := .list [[]] }, []⟩

theorem exPortZero_reached : Reached exEnv exPortZero := .new (s := u!"foo://h:0/") (by decide) (by decide +kernel)

/-- "http://h/" -/
def exPlain : URLObj := ⟨{ scheme := u!"http", host := some (.str u!"h"), path := .list [[]] }, []⟩

theorem exPlain_reached : Reached exEnv exPlain := .new (s := u!"http://h/") (by decide) (by decide +kernel)

/-- C67 is false for the port 0: by the standard, a URL with a port cannot get an empty host. -/
theorem C67_false_port_zero : Performs (hostOf exEnv.quiet) exPortZero (.host []) false exPortZero ∧
    (applyOp exEnv exPortZero (.host [])).2 ≠ exPortZero := by
  refine ⟨⟨.ok exPortZero.url, Spec.exec_halts (n := 10) (by decide +kernel), rfl, rfl⟩, by decide +kernel⟩

/-- C67 is false for tabs and newlines in a query: the URL has them removed, the standard's list of pairs has not. -/
theorem C67_false_search :
    (∃ u, Performs (hostOf exEnv.quiet) exPlain (.search u!"a=\tb") false ⟨u, [(u!"a", u!"\tb")]⟩) ∧
    (applyOp exEnv exPlain (.search u!"a=\tb")).2.params = [(u!"a", u!"b")] := by
  refine ⟨⟨{ exPlain.url with query := some u!"a=b" }, ?_⟩, by decide +kernel⟩
  refine ⟨.ok { exPlain.url with query := some u!"a=b" }, Spec.exec_halts (n := 10) (by decide +kernel), rfl, by decide +kernel⟩

/-- C67 is false for names and values with escapes, which the library decodes, and for "~", which it does not encode. -/
theorem C67_false_append :
    Performs (hostOf exEnv.quiet) exPlain (.spAppend u!"%41" (.str u!"~")) false
      ⟨{ exPlain.url with query := some u!"%2541=%7E" }, [(u!"%41", u!"~")]⟩ ∧
    (applyOp exEnv exPlain (.spAppend u!"%41" (.str u!"~"))).2 =
      ⟨{ exPlain.url with query := some u!"A=~" }, [(u!"A", u!"~")]⟩ := by
  refine ⟨⟨rfl, by decide +kernel⟩, by decide +kernel⟩

/-- C67 is false for `delete` with a number as value: by the standard it is a string. -/
theorem C67_false_delete : ∃ o, Reached exEnv o ∧ o.params = [(u!"a", u!"1")] ∧
    (∃ u, Performs (hostOf exEnv.quiet) o (.spDelete u!"a" (some (.num u!"1"))) false ⟨u, []⟩) ∧
    (applyOp exEnv o (.spDelete u!"a" (some (.num u!"1")))).2.params = [(u!"a", u!"1")] := by
  refine ⟨⟨{ exPlain.url with query := some u!"a=1" }, [(u!"a", u!"1")]⟩,
    .new (s := u!"http://h/?a=1") (by decide) (by decide +kernel), rfl, ⟨exPlain.url, rfl, by decide +kernel⟩, by decide +kernel⟩

/-- C67 (partial). On every URL object that a program can hold, every operation does what the standard says: the
object afterwards is the standard's, and an exception is raised exactly when the standard's basic URL parser returns
failure. (The standard itself throws only for `href`; the library raises for every attribute.)

Missing, see `RegularOp`: `host`, `hostname` and `protocol` on a URL with port 0 (`C67_false_port_zero`), `search` with tabs or
newlines (`C67_false_search`), names and values with escapes or "~" (`C67_false_append`), `delete` with a number
(`C67_false_delete`), strings with surrogates (C64), and inputs longer than the interpreter's limit for digits. The host
parser here is the code's own; `C67_standard_host_partial` has the standard's. -/
theorem C67_operation_partial (env : Env) (o : URLObj) (h : Reached env o) (op : Op) (hr : RegularOp o op)
    (hd : env.maxStrDigits = 0 ∨ opLength op ≤ env.maxStrDigits) (o' : URLObj) :
    (applyOp env o op = (.ok (), o') ↔ Performs (hostOf env.quiet) o op false o') ∧
    ((∃ err, applyOp env o op = (.error err, o')) ↔ Performs (hostOf env.quiet) o op true o') := by
  have hok := h.objOK (hostSpec_true _)
  have hsc : ∀ p ∈ o.params, IsStr p.1 ∧ IsStr p.2 := fun p hp => ⟨(hok.scalar p hp).1.isStr, (hok.scalar p hp).2.isStr⟩
  have hdone : Done (Performs (hostOf env.quiet) o op) (applyOp env o op) := by
    cases op with
    | hash v => exact done_hash hok hr hd
    | host v => exact done_host hr.1 (fun _ _ => .of hr.2 _) hd
    | hostname v => exact done_hostname hr.1 (fun _ _ => .of hr.2 _) hd
    | href v => exact done_href hok hr hd
    | password v => exact done_password hr
    | pathname v => exact done_pathname hr hd
    | port v => exact done_port hok hr hd
    | protocol v => exact done_protocol hok hr.1 (fun _ _ h0 => absurd h0 hr.2) hd
    | search v => exact done_search hok hr.1 hr.2 hd
    | username v => exact done_username hr
    | spAppend n v =>
      obtain ⟨h1, h2, h3, h4, h5⟩ := hr
      have e : Urlstd.spAppend o.params n v = o.params ++ [(n, v.toStr)] := by
        rw [(C51_append o.params n v h1.1.isStr h2.1.isStr).1, decoded_plain h1.1 h1.2, decoded_plain h2.1 h2.2]
      show Done (Spec.Lists o (o.params ++ [(n, v.toStr)])) (spMutate o (Urlstd.spAppend o.params n v))
      rw [e]
      refine done_lists hok ?_ ?_
      · intro p hp
        rcases List.mem_append.1 hp with hp | hp
        · exact hsc p hp
        · rw [List.mem_singleton.1 hp]; exact ⟨h1.1.isStr, h2.1.isStr⟩
      · intro p hp
        rcases List.mem_append.1 hp with hp | hp
        · exact h5 p hp
        · rw [List.mem_singleton.1 hp]; exact ⟨h3, h4⟩
    | spDelete n v =>
      cases v with
      | none =>
        have e := C50_delete_name o.params n hr.1.1.isStr
        rw [decoded_plain hr.1.1 hr.1.2] at e
        show Done (Spec.Lists o (o.params.filter fun p => p.1 ≠ n)) (spMutate o (Urlstd.spDelete o.params n none))
        rw [e]
        exact done_lists hok (fun p hp => hsc p (List.mem_filter.1 hp).1) (fun p hp => hr.2 p (List.mem_filter.1 hp).1)
      | some v =>
        obtain ⟨h1, ⟨s, rfl⟩, h3⟩ := hr
        have e := C50_delete_value o.params n s h1.1.isStr
        rw [decoded_plain h1.1 h1.2] at e
        show Done (Spec.Lists o (o.params.filter fun p => ¬ (p.1 = n ∧ p.2 = s))) (spMutate o (Urlstd.spDelete o.params n (some (.str s))))
        rw [e]
        exact done_lists hok (fun p hp => hsc p (List.mem_filter.1 hp).1) (fun p hp => h3 p (List.mem_filter.1 hp).1)
    | spSet n v =>
      obtain ⟨h1, h2, h3, h4, h5⟩ := hr
      have e := setPair_eq n n h1 v h2 o.params
      show Done (Spec.Lists o (Spec.setPair n v.toStr o.params)) (spMutate o (Urlstd.spSet o.params n v))
      rw [← e]
      have hm : ∀ (l : Params) p, p ∈ Spec.setPair n v.toStr l → p ∈ l ∨ p = (n, v.toStr) := by
        intro l
        induction l with
        | nil => intro p hp; exact .inr (List.mem_singleton.1 hp)
        | cons q qs ih =>
          intro p hp
          unfold Spec.setPair at hp
          split at hp
          · rcases List.mem_cons.1 hp with hp | hp
            · exact .inr hp
            · exact .inl (List.mem_cons_of_mem _ (List.mem_filter.1 hp).1)
          · rcases List.mem_cons.1 hp with hp | hp
            · exact .inl (by rw [hp]; simp)
            · exact (ih p hp).imp (List.mem_cons_of_mem _) id
      refine done_lists hok (fun p hp => ?_) (fun p hp => ?_)
      · rcases hm _ p hp with hp | rfl
        · exact hsc p hp
        · exact ⟨h1.1.isStr, h2.1.isStr⟩
      · rcases hm _ p hp with hp | rfl
        · exact h5 p hp
        · exact ⟨h3, h4⟩
    | spSort =>
      have hs : Spec.SortedFrom o.params (Urlstd.spSort o.params) := ⟨C53_sort_sorted _, (C53_sort_stable _).1⟩
      have hl := done_lists (l := Urlstd.spSort o.params) hok (fun p hp => hsc p ((C53_sort_perm _).mem_iff.1 hp))
        (fun p hp => hr p ((C53_sort_perm _).mem_iff.1 hp))
      intro f o''
      rw [show applyOp env o .spSort = spMutate o (Urlstd.spSort o.params) from rfl, ← hl f o'']
      constructor
      · rintro ⟨l, h1, h2⟩
        rw [← C53_sort_unique o.params l h1.1 h1.2]
        exact h2
      · intro h2
        exact ⟨_, hs, h2⟩
  rcases hres : applyOp env o op with ⟨r, o₁⟩
  rw [hres] at hdone
  rw [hdone false o', hdone true o']
  cases r with
  | ok x =>
    constructor
    · constructor
      · intro h; cases h; exact ⟨rfl, rfl⟩
      · rintro ⟨_, h⟩; cases h; rfl
    · constructor
      · rintro ⟨err, h⟩; cases h
      · rintro ⟨h, _⟩; cases h
  | error err =>
    constructor
    · constructor
      · intro h; cases h
      · rintro ⟨h, _⟩; cases h
    · constructor
      · rintro ⟨_, h⟩; cases h; exact ⟨rfl, rfl⟩
      · rintro ⟨_, h⟩; cases h; exact ⟨err, rfl⟩

/-- C67 (partial, as above). The standard says what every operation does: there is exactly one object afterwards. -/
theorem C67_determined_partial (env : Env) (o : URLObj) (h : Reached env o) (op : Op) (hr : RegularOp o op)
    (hd : env.maxStrDigits = 0 ∨ opLength op ≤ env.maxStrDigits) :
    ∃ failed o', Performs (hostOf env.quiet) o op failed o' ∧
      ∀ failed' o'', Performs (hostOf env.quiet) o op failed' o'' → failed' = failed ∧ o'' = o' := by
  have key := C67_operation_partial env o h op hr hd
  rcases hres : applyOp env o op with ⟨r, o₁⟩
  cases r with
  | ok x =>
    refine ⟨false, o₁, (key o₁).1.1 hres, fun f o'' hp => ?_⟩
    cases f with
    | false => have := (key o'').1.2 hp; rw [hres] at this; cases this; exact ⟨rfl, rfl⟩
    | true => obtain ⟨e, this⟩ := (key o'').2.2 hp; rw [hres] at this; cases this
  | error err =>
    refine ⟨true, o₁, (key o₁).2.1 ⟨err, hres⟩, fun f o'' hp => ?_⟩
    cases f with
    | false => have := (key o'').1.2 hp; rw [hres] at this; cases this
    | true => obtain ⟨e, this⟩ := (key o'').2.2 hp; rw [hres] at this; cases this; exact ⟨rfl, rfl⟩

/-- C67 (partial, as above and as C66 is). The same with the standard's host parser, for every operation that hands it
no deviating text. -/
theorem C67_standard_host_partial (env : Env) (henv : EnvOK env) (o : URLObj) (h : Reached env o) (op : Op)
    (hr : RegularOp o op) (hd : env.maxStrDigits = 0 ∨ opLength op ≤ env.maxStrDigits)
    (hh : ∀ t m, OpAsks (hostParser (env.nameToAscii false)) o op t m →
      RegularHost (Spec.domainToASCII (env.nameToAscii false)) t m) (o' : URLObj) :
    (applyOp env o op = (.ok (), o') ↔ Performs (hostParser (env.nameToAscii false)) o op false o') ∧
    ((∃ err, applyOp env o op = (.error err, o')) ↔ Performs (hostParser (env.nameToAscii false)) o op true o') := by
  have key : ∀ f, Performs (hostOf env.quiet) o op f o' ↔ Performs (hostParser (env.nameToAscii false)) o op f o' := by
    refine fun f => Performs_iff (fun t m ha => ?_) f o'
    have hs : ∀ v, op = .href v ∨ op = .host v ∨ op = .hostname v → IsScalarStr v := by
      rintro v (rfl | rfl | rfl)
      · exact hr
      · exact hr.1
      · exact hr.1
    obtain ⟨h1, h2⟩ := opAsks_mem hs ha
    rw [hostOf_eq]
    exact (C66_host_parser_partial env.quiet henv t h1 m h2 (hh t m ha)).symm
  rw [← key, ← key]
  exact C67_operation_partial env o h op hr hd o'

/-! ### Examples -/

example : Performs (hostOf exEnv.quiet) exStart (.host u!"e.org:70000") true
    { exStart with url := { exStart.url with host := some (.str u!"e.org") } } :=
  ((C67_operation_partial exEnv exStart exStart_reached (.host u!"e.org:70000")
    ⟨by unfold IsScalarStr Spec.Surrogate; decide, by decide⟩ (.inr (by decide)) _).2).1 ⟨.urlParse, by decide +kernel⟩

example : Performs (hostOf exEnv.quiet) exStart (.search u!"?é=1&a+b=%2B") false
    ⟨{ exStart.url with query := some u!"%C3%A9=1&a+b=%2B" }, [(u!"é", u!"1"), (u!"a b", u!"+")]⟩ :=
  ((C67_operation_partial exEnv exStart exStart_reached (.search u!"?é=1&a+b=%2B")
    ⟨by unfold IsScalarStr Spec.Surrogate; decide, by unfold Spec.TabOrNewline; decide⟩ (.inr (by decide)) _).1).1 (by decide +kernel)

-- the host parser of the standard, on a host with capitals and an escape
example : applyOp exEnv exStart (.host u!"My-h%6Fst.example:8080") =
    (.ok (), { exStart with url := { exStart.url with host := some (.str u!"my-host.example"), port := some 8080 } }) := by
  refine (C67_standard_host_partial exEnv (.inr (by decide)) exStart exStart_reached (.host u!"My-h%6Fst.example:8080")
    ⟨by unfold IsScalarStr Spec.Surrogate; decide, by decide⟩ (.inr (by decide)) ?_ _).1.2 ?_
  · intro t m ha
    have hm := Spec.asks_asked (n := 100) (l := [(u!"My-h%6Fst.example", false)]) ha.2 (by decide +kernel)
    simp only [List.mem_singleton, Prod.mk.injEq] at hm
    obtain ⟨rfl, rfl⟩ := hm
    exact exEnv_regular
  · exact ⟨.ok { exStart.url with host := some (.str u!"my-host.example"), port := some 8080 },
      Spec.exec_halts (n := 100) (by decide +kernel), rfl, rfl⟩

end Urlstd.Props
