/-
Property C47: assigning an attribute its own value.
-/
import Verif.Lemmas.OwnValue
import Verif.Lemmas.Again
import Verif.Props.History

set_option linter.unusedSimpArgs false
set_option linter.unusedVariables false

namespace Urlstd.Props

open Spec (IsStr Deviant)

/-- the attributes of `URL` that can be assigned -/
inductive Attr where
  | href | protocol | username | password | host | hostname | port | pathname | search | hash
  deriving DecidableEq, Repr

/-- `url.x` -/
def Attr.get (o : URLObj) : Attr → Str
  | .href => o.href
  | .protocol => o.protocol
  | .username => o.username
  | .password => o.password
  | .host => o.host
  | .hostname => o.hostname
  | .port => o.port
  | .pathname => o.pathname
  | .search => o.search
  | .hash => o.hash

/-- `url.x = v` -/
def Attr.set (v : Str) : Attr → Op
  | .href => .href v
  | .protocol => .protocol v
  | .username => .username v
  | .password => .password v
  | .host => .host v
  | .hostname => .hostname v
  | .port => .port v
  | .pathname => .pathname v
  | .search => .search v
  | .hash => .hash v

/-- "foo:/bar" -/
def ownNull : URLObj := ⟨{ scheme := u!"foo", path := .list [u!"bar"] }, []⟩
/-- "http://h/?" -/
def ownQuery : URLObj := ⟨{ scheme := u!"http", host := some (.str u!"h"), path := .list [[]], query := some [] }, []⟩
/-- "http://h/#" -/
def ownHash : URLObj := ⟨{ scheme := u!"http", host := some (.str u!"h"), path := .list [[]], fragment := some [] }, []⟩

/-- C47 is false: `url.x = url.x` changes `href` for a null host, an empty query or an empty fragment, though the
parser produced the URL. -/
theorem C47_false :
    (Reached exEnv ownNull ∧ ownNull.href = u!"foo:/bar" ∧
      ∀ a, a = Attr.host ∨ a = .hostname → (applyOp exEnv ownNull (a.set (a.get ownNull))).2.href = u!"foo:///bar") ∧
    (Reached exEnv ownQuery ∧ ownQuery.href = u!"http://h/?" ∧
      (applyOp exEnv ownQuery (Attr.search.set (Attr.search.get ownQuery))).2.href = u!"http://h/") ∧
    (Reached exEnv ownHash ∧ ownHash.href = u!"http://h/#" ∧
      (applyOp exEnv ownHash (Attr.hash.set (Attr.hash.get ownHash))).2.href = u!"http://h/") := by
  refine ⟨⟨.new (s := u!"foo:/bar") (by decide) (by decide +kernel), by decide +kernel, ?_⟩,
    ⟨.new (s := u!"http://h/?") (by decide) (by decide +kernel), by decide +kernel, by decide +kernel⟩,
    ⟨.new (s := u!"http://h/#") (by decide) (by decide +kernel), by decide +kernel, by decide +kernel⟩⟩
  rintro a (rfl | rfl) <;> decide +kernel

/-- C47 is false as well for URLs the parser never produces but the setters do: a "file" URL with the host
"localhost" or a drive letter with "|", and a port 0 without a host. -/
theorem C47_false_deviant :
    (Reached exEnv devLocalhost ∧ devLocalhost.href = u!"file://localhost/" ∧
      (applyOp exEnv devLocalhost (Attr.host.set (Attr.host.get devLocalhost))).2.href = u!"file:///") ∧
    (Reached exEnv devDrive ∧ devDrive.href = u!"file://h/C|/x" ∧
      (applyOp exEnv devDrive (Attr.pathname.set (Attr.pathname.get devDrive))).2.href = u!"file://h/C:/x") ∧
    (Reached exEnv devPort ∧ (applyOp exEnv devPort (Attr.host.set (Attr.host.get devPort))).1 = .error .urlParse) :=
  ⟨⟨devLocalhost_reached, by decide +kernel, by decide +kernel⟩, ⟨devDrive_reached, by decide +kernel, by decide +kernel⟩,
    devPort_reached, by decide +kernel⟩

/-- C47 for scheme, credentials and port: `url.x = url.x` changes nothing at all, whatever the history of `url`. -/
theorem C47_plain (env : Env) (he : EnvOK env) (o : URLObj) (h : Reached env o) (a : Attr)
    (ha : a = .protocol ∨ a = .username ∨ a = .password ∨ a = .port) :
    applyOp env o (a.set (a.get o)) = (.ok (), o) := by
  have hw := (h.objOK (hostSpec_true _)).url
  rcases ha with rfl | rfl | rfl | rfl
  · exact own_protocol env hw
  · exact own_username hw
  · exact own_password hw
  · exact own_port he hw

/-- C47 for query and fragment, unless they are the empty string. -/
theorem C47_tail_partial (env : Env) (o : URLObj) (h : Reached env o) :
    (o.url.query ≠ some [] → applyOp env o (.search o.search) = (.ok (), o)) ∧
    (o.url.fragment ≠ some [] → applyOp env o (.hash o.hash) = (.ok (), o)) :=
  ⟨fun hq => own_search (h.objOK (hostSpec_true _)) hq, fun hf => own_hash (h.objOK (hostSpec_true _)).url hf⟩

/-- C47 (partial) for all attributes: `url.x = url.x` raises nothing and leaves `href` and `search_params` as they
are, except in the cases of `C47_false` and `C47_false_deviant`. -/
theorem C47_own_value_partial (env : Env) (he : EnvOK env) (hi : IdnaOK env) (o : URLObj) (h : Reached env o)
    (hd : ¬ Deviant o.url) (a : Attr)
    (hnull : a = .host ∨ a = .hostname → o.url.host ≠ none ∨ ∃ s, o.url.path = .opaque s)
    (hquery : a = .search → o.url.query ≠ some []) (hfrag : a = .hash → o.url.fragment ≠ some []) :
    (applyOp env o (a.set (a.get o))).1 = .ok () ∧ (applyOp env o (a.set (a.get o))).2.href = o.href ∧
      (applyOp env o (a.set (a.get o))).2.params = o.params := by
  have ho := h.objOK (hostSpec_wf hi.quiet)
  have hw := ho.url.strict hd
  have same : ∀ r : SetOut, r = (.ok (), o) → r.1 = .ok () ∧ r.2.href = o.href ∧ r.2.params = o.params := by
    rintro r rfl; exact ⟨rfl, rfl, rfl⟩
  have same' : ∀ r : SetOut, r = (.ok (), o) ∨ r = (.ok (), { o with url := o.url.canon }) →
      r.1 = .ok () ∧ r.2.href = o.href ∧ r.2.params = o.params := by
    rintro r (rfl | rfl)
    · exact ⟨rfl, rfl, rfl⟩
    · exact ⟨rfl, serialize_canon o.url false, rfl⟩
  cases a with
  | href =>
    have hv : (basicParse env.quiet o.href).toExcept = .ok o.url.canon :=
      basicParse_serialize (env := env.quiet) he hi.quiet hw
    have e : applyOp env o (.href o.href) = (.ok (), ⟨o.url.canon, spOfQuery o.url.canon.query⟩) := by
      show setHref env o o.href = _
      unfold setHref
      rw [hv]
    show (applyOp env o (.href o.href)).1 = _ ∧ (applyOp env o (.href o.href)).2.href = _ ∧
      (applyOp env o (.href o.href)).2.params = _
    rw [e]
    exact ⟨rfl, serialize_canon o.url false, ho.params.symm⟩
  | protocol => exact same _ (own_protocol env hw)
  | username => exact same _ (own_username hw)
  | password => exact same _ (own_password hw)
  | host => exact same' _ (own_host he hi hw (hnull (.inl rfl))).1
  | hostname => exact same' _ (own_host he hi hw (hnull (.inr rfl))).2
  | port => exact same _ (own_port he hw)
  | pathname => exact same _ (own_pathname hw)
  | search => exact same _ (own_search ho (hquery rfl))
  | hash => exact same _ (own_hash hw (hfrag rfl))

theorem rstrip_length (u : Rec) : (potentiallyRstrip u).serialize.length ≤ u.serialize.length := by
  by_cases h : ∃ s, u.path = .opaque s ∧ u.fragment = none ∧ u.query = none
  · obtain ⟨s, h1, h2, h3⟩ := h
    rw [rstrip_opaque h1 h2 h3]
    generalize hd : (s.reverse.dropWhile fun c => isPySpace c || (0x1C ≤ c && c ≤ 0x1F)).reverse = s'
    have hl : s'.length ≤ s.length := by
      rw [← hd, List.length_reverse, ← List.length_reverse (as := s)]
      exact (List.dropWhile_sublist _).length_le
    have hn : u.needsDot = false := by unfold Rec.needsDot; rw [h1]; cases u.host <;> rfl
    have hn' : ({ u with path := .opaque s' } : Rec).needsDot = false := by unfold Rec.needsDot; cases u.host <;> rfl
    have e : ({ u with path := .opaque s' } : Rec).serializeCredentials = u.serializeCredentials := rfl
    have e2 : ({ u with path := .opaque s' } : Rec).serializePort = u.serializePort := rfl
    unfold Rec.serialize
    rw [hn, hn', e, e2, h1]
    simp only [List.length_append, serializePath]
    omega
  · rw [rstrip_other (fun s h1 h2 h3 => h ⟨s, h1, h2, h3⟩)]
    exact Nat.le_refl _

theorem query_length {u : Rec} {q : Str} (h : u.query = some q) : ({ u with query := none } : Rec).serialize.length < u.serialize.length := by
  unfold Rec.serialize Rec.needsDot
  rw [h]
  simp only [List.length_append, List.length_cons, List.length_nil]
  have e : ({ u with query := none } : Rec).serializeCredentials = u.serializeCredentials := rfl
  have e2 : ({ u with query := none } : Rec).serializePort = u.serializePort := rfl
  rw [e, e2]
  omega

theorem fragment_length {u : Rec} {q : Str} (h : u.fragment = some q) : ({ u with fragment := none } : Rec).serialize.length < u.serialize.length := by
  unfold Rec.serialize Rec.needsDot
  rw [h]
  simp only [List.length_append, List.length_cons, List.length_nil, Bool.false_eq_true, if_false]
  have e : ({ u with fragment := none } : Rec).serializeCredentials = u.serializeCredentials := rfl
  have e2 : ({ u with fragment := none } : Rec).serializePort = u.serializePort := rfl
  rw [e, e2]
  omega

/-- a URL without host is written differently from one with the empty host -/
theorem host_serialize_ne {u : Rec} {l : List Str} (hh : u.host = none) (hl : u.path = .list l) (hw : u.username = [] ∧ u.password = [] ∧ u.port = none) :
    ({ u with host := some (.str []) } : Rec).serialize ≠ u.serialize := by
  obtain ⟨h1, h2, h3⟩ := hw
  unfold Rec.serialize
  rw [hh]
  have hn : ({ u with host := some (.str []) } : Rec).needsDot = false := rfl
  have hc : ({ u with host := some (.str []) } : Rec).serializeCredentials = [] := by
    unfold Rec.serializeCredentials Rec.includesCredentials; simp [h1, h2]
  have hp : ({ u with host := some (.str []) } : Rec).serializePort = [] := by
    unfold Rec.serializePort; simp [h3]
  rw [hn, hc, hp, hl]
  cases hd : u.needsDot with
  | false =>
    intro h
    have := congrArg List.length h
    simp [hostSerialize] at this
    omega
  | true =>
    intro h
    simp [hostSerialize] at h

/-- C47. The exceptions are exact: for every reachable URL outside of those of C46, `url.x = url.x` leaves `href` as it is unless
the host is null (and the path not opaque), the query or the fragment is the empty string. -/
theorem C47_exact (env : Env) (he : EnvOK env) (hi : IdnaOK env) (o : URLObj) (h : Reached env o) (hd : ¬ Deviant o.url) (a : Attr) :
    (applyOp env o (a.set (a.get o))).2.href = o.href ↔
      (a = .host ∨ a = .hostname → o.url.host ≠ none ∨ ∃ s, o.url.path = .opaque s) ∧
      (a = .search → o.url.query ≠ some []) ∧ (a = .hash → o.url.fragment ≠ some []) := by
  constructor
  · intro heq
    have hw := (h.objOK (hostSpec_wf hi.quiet)).url.strict hd
    refine ⟨fun ha => ?_, ?_, ?_⟩
    · cases hp : o.url.path with
      | «opaque» s => exact .inr ⟨s, rfl⟩
      | list l =>
        left
        intro hn
        have ho : o.url.hasOpaquePath = false := by unfold Rec.hasOpaquePath; rw [hp]
        have hsp : o.url.isSpecial = false := by
          cases hb : o.url.isSpecial with
          | false => rfl
          | true => exact absurd hn (hw.auth.special hb).1
        have hbare := hw.auth.bare (.inl hn)
        have key : ∀ ov, hostSetOut env.quiet ov o.url [] = (.ok (), { o.url with host := some (.str []) }) := by
          intro ov
          have hf : o.url.scheme ≠ u!"file" := by
            intro hf
            unfold Rec.isSpecial at hsp
            rw [hf] at hsp
            exact absurd hsp (by decide)
          have hc : o.url.includesCredentials = false := by unfold Rec.includesCredentials; rw [hbare.1, hbare.2.1]; rfl
          have hpt : o.url.portTruthy = false := by unfold Rec.portTruthy; rw [hbare.2.2]
          unfold hostSetOut
          rw [if_neg hf]
          show hostEndOut env.quiet o.url [] = _
          unfold hostEndOut
          rw [hsp, hc, hpt]
          rfl
        have hne := host_serialize_ne hn hp ⟨hbare.1, hbare.2.1, hbare.2.2⟩
        rcases ha with rfl | rfl
        · have hv : Attr.get o .host = [] := by show o.host = []; unfold URLObj.host; rw [hn]
          rw [hv] at heq
          have e : applyOp env o (Attr.set [] .host) = setHost env o [] := rfl
          rw [e, setHost_eq env o _ ho, show removeTabNewline [] = [] from rfl, key] at heq
          exact hne heq
        · have hv : Attr.get o .hostname = [] := by show o.hostname = []; unfold URLObj.hostname Rec.serializeHost; rw [hn]
          rw [hv] at heq
          have e : applyOp env o (Attr.set [] .hostname) = setHostname env o [] := rfl
          rw [e, setHostname_eq env o _ ho, show removeTabNewline [] = [] from rfl, key] at heq
          exact hne heq
    · rintro rfl hq
      have hv : Attr.get o .search = [] := by show o.search = []; unfold URLObj.search; rw [hq]; rfl
      rw [hv] at heq
      have e : applyOp env o (Attr.set [] .search) = setSearch env o [] := rfl
      rw [e] at heq
      unfold setSearch at heq
      have h1 := rstrip_length { o.url with query := none }
      have h2 := query_length hq
      have h3 : (potentiallyRstrip { o.url with query := none }).serialize = o.url.serialize := heq
      rw [h3] at h1
      exact absurd (Nat.lt_of_lt_of_le h2 h1) (Nat.lt_irrefl _)
    · rintro rfl hq
      have hv : Attr.get o .hash = [] := by show o.hash = []; unfold URLObj.hash; rw [hq]; rfl
      rw [hv] at heq
      have e : applyOp env o (Attr.set [] .hash) = setHash env o [] := rfl
      rw [e] at heq
      unfold setHash at heq
      have h1 := rstrip_length { o.url with fragment := none }
      have h2 := fragment_length hq
      have h3 : (potentiallyRstrip { o.url with fragment := none }).serialize = o.url.serialize := heq
      rw [h3] at h1
      exact absurd (Nat.lt_of_lt_of_le h2 h1) (Nat.lt_irrefl _)
  · rintro ⟨h1, h2, h3⟩
    exact (C47_own_value_partial env he hi o h hd a h1 h2 h3).2.1

/-- the hypotheses are met, for all attributes at once, by an object with a history -/
example : ∃ o, Reached exEnv o ∧ ¬ Deviant o.url ∧ o.url.host ≠ none ∧ o.url.query ≠ some [] ∧
    o.url.fragment ≠ some [] ∧ o.href = u!"wss://%C3%BC@h:8080/b%20c?x=1&%C3%A9=%26" := by
  refine ⟨applyOps exEnv exStart exHistory, reached_ops exStart_reached exHistory_str, ?_, by decide +kernel,
    by decide +kernel, by decide +kernel, by decide +kernel⟩
  have h1 : (applyOps exEnv exStart exHistory).url.port = some 8080 := by decide +kernel
  have h2 : (applyOps exEnv exStart exHistory).url.scheme = u!"wss" := by decide +kernel
  rintro (⟨h, _⟩ | ⟨h, _⟩)
  · rw [h1] at h; cases h
  · rw [h2] at h; cases h

end Urlstd.Props
