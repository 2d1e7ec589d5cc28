/-
C92. What an assignment does is given by rules.
-/
import Verif.Lemmas.Assign
import Verif.Props.History

namespace Urlstd.Props

open Spec (Assigns AssignsHost AssignsName AssignsPort AssignsPath Assignment paramsAfter LeadingDigits)

/-- C92. The rules say, in exactly one way, for every assignment to an attribute of a URL object whatever its past, whether it raises
an exception and what the URL is afterwards; and this is what the setters do. The search parameters are those of the query after an
assignment to `search` or a successful one to `href`, and are not touched otherwise. -/
theorem C92_assign (env : Env) (o : URLObj) (h : Reached env o) (op : Op) (hop : Assignment op) (x : Except Err Unit) (o' : URLObj) :
    applyOp env o op = (x, o') ↔ Assigns env.quiet o.url op x o'.url ∧ o'.params = paramsAfter o.params o'.url op x := by
  constructor
  · intro ha
    obtain ⟨y, w, hw⟩ := assigns_total env.quiet o.url hop
    rw [assigns_sound h hop hw] at ha
    cases ha
    exact ⟨hw, rfl⟩
  · rintro ⟨ha, hp⟩
    rw [assigns_sound h hop ha, ← hp]

/-- C92: no two rules contradict each other. -/
theorem C92_unique (env : Env) (o : URLObj) (h : Reached env o) (op : Op) (hop : Assignment op) (x y : Except Err Unit) (u v : Rec)
    (h1 : Assigns env.quiet o.url op x u) (h2 : Assigns env.quiet o.url op y v) : x = y ∧ u = v := by
  have := (assigns_sound h hop h1).symm.trans (assigns_sound h hop h2)
  cases this
  exact ⟨rfl, rfl⟩

/-- C92: there is a rule for every assignment. -/
theorem C92_total (env : Env) (o : URLObj) (op : Op) (hop : Assignment op) : ∃ x u, Assigns env.quiet o.url op x u :=
  assigns_total env.quiet o.url hop

local instance (sp : Bool) (c : Nat) : Decidable (Spec.AuthorityEnd sp c) := inferInstanceAs (Decidable (_ ∨ _))

local instance (sp : Bool) (r : Str) : Decidable (∀ c, r.head? = some c → Spec.AuthorityEnd sp c) :=
  match r with
  | [] => isTrue (fun c h => by cases h)
  | d :: _ => if h : Spec.AuthorityEnd sp d then isTrue (fun c hc => by cases hc; exact h) else isFalse (fun hn => h (hn d rfl))

local instance : (op : Op) → Decidable (Assignment op)
  | .href v | .protocol v | .username v | .password v | .host v | .hostname v | .port v | .pathname v | .search v | .hash v =>
    inferInstanceAs (Decidable (Spec.IsStr v))
  | .spAppend .. | .spDelete .. | .spSet .. | .spSort => inferInstanceAs (Decidable False)

-- host and port, with a newline in the port and a rest
example : applyOp exEnv exStart (.host u!"A.b:8\n1x/y") =
    (.ok (), { exStart with url := { exStart.url with host := some (.str u!"a.b"), port := some 81 } }) := by
  refine (C92_assign exEnv exStart exStart_reached _ (by decide) _ _).2 ⟨?_, rfl⟩
  refine .host _ _ _ (fun p hp => by cases hp) ?_
  refine .both u!"A.b" u!"81x/y" (.str u!"a.b") _ _ rfl (by decide) (by decide) ⟨?_, ?_⟩ ?_ (by decide +kernel) ?_
  · decide
  · intro a b h
    exact absurd (show 58 ∈ u!"A.b" by rw [h]; simp) (by decide)
  · exact fun h => absurd ((bracketAfter_false _).2 h) (by decide)
  · exact .port _ u!"81" (some 81) (by decide) ⟨by decide, u!"x/y", rfl, by decide⟩ (by decide)

-- `hostname` ignores a text with a port
example : applyOp exEnv exStart (.hostname u!"b:1") = (.ok (), exStart) := by
  refine (C92_assign exEnv exStart exStart_reached _ (by decide) _ _).2 ⟨?_, rfl⟩
  refine .hostname _ _ _ (fun p hp => by cases hp) ?_
  refine .ignored u!"b" u!"1" rfl (by decide) (by decide) ⟨by decide, ?_⟩ (fun h => absurd ((bracketAfter_false _).2 h) (by decide))
  intro a b h
  exact absurd (show 58 ∈ u!"b" by rw [h]; simp) (by decide)

-- a special URL needs a host
example : applyOp exEnv exStart (.hostname u!"/b") = (.error .urlParse, exStart) := by
  refine (C92_assign exEnv exStart exStart_reached _ (by decide) _ _).2 ⟨?_, rfl⟩
  refine .hostname _ _ _ (fun p hp => by cases hp) ?_
  exact .name [] u!"/b" _ _ (by decide) ⟨by decide, fun a b h => by cases a <;> cases h⟩ (by decide) (.needed rfl)

-- the default port of the scheme
example : applyOp exEnv exStart (.port u!"080") = (.ok (), { exStart with url := { exStart.url with port := none } }) := by
  refine (C92_assign exEnv exStart exStart_reached _ (by decide) _ _).2 ⟨?_, rfl⟩
  refine .port _ _ _ (by simp [Spec.CannotHaveUPP, exStart]) (by decide) ?_
  exact .port _ u!"080" none (by decide) ⟨by decide, [], rfl, by decide⟩ (by decide)

-- a scheme of the other kind is ignored
example : applyOp exEnv exStart (.protocol u!"foo") = (.ok (), exStart) := by
  refine (C92_assign exEnv exStart exStart_reached _ (by decide) _ _).2 ⟨?_, rfl⟩
  refine .protocolKept u!"foo" u!"foo" [] ⟨102, u!"oo", rfl, by decide, by decide⟩ rfl ?_
  rintro ⟨h, -⟩
  exact absurd h (by decide)

-- and a text that does not begin with a letter is refused
example : applyOp exEnv exStart (.protocol u!"9") = (.error .urlParse, exStart) := by
  refine (C92_assign exEnv exStart exStart_reached _ (by decide) _ _).2 ⟨?_, rfl⟩
  refine .protocolRefused _ ?_
  rintro ⟨sc, rest, ⟨c, cs, rfl, hc, -⟩, h⟩
  simp only [List.cons_append] at h
  injection h with h _
  subst h
  exact absurd hc (by decide)

-- a path
example : applyOp exEnv exStart (.pathname u!"b/../c d") =
    (.ok (), { exStart with url := { exStart.url with path := .list [u!"c%20d"] } }) := by
  refine (C92_assign exEnv exStart exStart_reached _ (by decide) _ _).2 ⟨?_, rfl⟩
  exact .pathname _ [u!"c%20d"] (fun p hp => by cases hp) (.bare u!"b/../c d" (by decide) (by decide))

-- the query, and with it the parameters
example : applyOp exEnv exStart (.search u!"?a=\tb") =
    (.ok (), ⟨{ exStart.url with query := some u!"a=b" }, [(u!"a", u!"b")]⟩) := by
  refine (C92_assign exEnv exStart exStart_reached _ (by decide) _ _).2 ⟨?_, by decide +kernel⟩
  exact .search _ u!"a=\tb" (by decide) (.inl rfl)

-- the fragment goes
example : applyOp exEnv exStart (.hash []) = (.ok (), { exStart with url := { exStart.url with fragment := none } }) :=
  (C92_assign exEnv exStart exStart_reached _ (by decide) _ _).2 ⟨.hashOff, rfl⟩

-- credentials; tabs count
example : applyOp exEnv exStart (.username u!"a\t:") = (.ok (), { exStart with url := { exStart.url with username := u!"a%09%3A" } }) := by
  refine (C92_assign exEnv exStart exStart_reached _ (by decide) _ _).2 ⟨?_, rfl⟩
  exact .username u!"a\t:" (by simp [Spec.CannotHaveUPP, exStart])

-- another special scheme
example : applyOp exEnv exStart (.protocol u!"WSS://") = (.ok (), { exStart with url := { exStart.url with scheme := u!"wss" } }) := by
  refine (C92_assign exEnv exStart exStart_reached _ (by decide) _ _).2 ⟨?_, rfl⟩
  refine .protocol u!"WSS://" u!"WSS" u!"//:" ⟨87, u!"SS", rfl, by decide, by decide⟩ rfl ⟨rfl, ?_, ?_⟩
  · exact fun h => absurd h.1 (by decide)
  · exact fun h => absurd h.1 (by decide)

/-- `URL("file://h/a")` -/
def exFileObj : URLObj := ⟨{ scheme := u!"file", host := some (.str u!"h"), path := .list [u!"a"] }, []⟩

theorem exFileObj_reached : Reached exEnv exFileObj := .new (s := u!"file://h/a") (by decide) (by decide +kernel)

-- "localhost" is no host of a "file" URL
example : applyOp exEnv exFileObj (.host u!"LOCALHOST/b") = (.ok (), { exFileObj with url := { exFileObj.url with host := some (.str []) } }) := by
  refine (C92_assign exEnv exFileObj exFileObj_reached _ (by decide) _ _).2 ⟨?_, rfl⟩
  refine .host _ _ _ (fun p hp => by cases hp) ?_
  exact .file u!"LOCALHOST" u!"/b" (.str u!"localhost") rfl (by decide) (by decide) (by decide) (by decide +kernel)

-- and a colon is part of the text that has to be a host
example : applyOp exEnv exFileObj (.host u!"b:1") = (.error .hostParse, exFileObj) := by
  refine (C92_assign exEnv exFileObj exFileObj_reached _ (by decide) _ _).2 ⟨?_, rfl⟩
  refine .host _ _ _ (fun p hp => by cases hp) ?_
  exact .fileRefused u!"b:1" [] .hostParse rfl (by decide) (by decide) (by decide) (by decide +kernel)

end Urlstd.Props
