/-
Property C105: operations on `search_params` are assignments to `search`.
-/
import Verif.Props.Params
import Verif.Props.History
import Verif.Lemmas.Again
import Verif.Lemmas.OwnValue

namespace Urlstd.Props

open Spec (IsStr IsScalarStr)

variable {env : Env}

/-- the methods of `search_params` that change something -/
def ParamOp : Op → Prop
  | .spAppend .. | .spDelete .. | .spSet .. | .spSort => True
  | _ => False

theorem rstrip_query {u : Rec} (h : u.query = none) : (potentiallyRstrip u).query = none := by
  unfold potentiallyRstrip
  split <;> exact h

theorem search_text {l : Params} (h : ScalarPairs l) (u : Rec) :
    removeTabNewline (dropLead c!"?" (urlencode l)) = urlencode l ∧ encodeQuery .utf8 u (urlencode l) = urlencode l := by
  have hs := urlencode_querySafe u.isSpecial h.isStr
  refine ⟨?_, query_fixed hs⟩
  have e : dropLead c!"?" (urlencode l) = urlencode l := by
    cases hu : urlencode l with
    | nil => rfl
    | cons c t =>
      unfold dropLead
      dsimp only
      rw [if_neg]
      rintro rfl
      exact urlencode_ne_question h t hu
  rw [e, noTab_print fun c hc => by have := querySafe_print (hs c hc); omega]

/-- what assigning the text of a list of pairs to `search` does -/
theorem setSearch_list (env : Env) (o : URLObj) {l : Params} (h : ScalarPairs l) :
    setSearch env o (spToStr l) = (.ok (), ⟨spUpdate l o.url, l⟩) := by
  unfold spUpdate
  dsimp only
  by_cases hl : l = []
  · have e : spToStr l = [] := (urlencode_nil_iff l).2 hl
    unfold setSearch
    rw [e, if_pos (by rfl), if_pos (by rfl)]
    dsimp only
    rw [rstrip_query rfl, hl]
    rfl
  · have hne : spToStr l ≠ [] := fun e => hl ((urlencode_nil_iff l).1 e)
    obtain ⟨e1, e2⟩ := search_text h o.url
    have hr : parseQsl (utf8Encode (urlencode l)) = l := C07_parse_qsl_urlencode_scalar l h
    rw [if_neg (by simpa using hne), setSearch_eq env o _ hne]
    unfold spToStr
    rw [e1, e2]
    have : spOfQuery (some (urlencode l)) = l := hr
    rw [this]

/-- C105. `append`, `delete`, `set` and `sort` of `search_params` do to the URL exactly what assigning the text of the new list
to `search` does. -/
theorem C105_operation (o : URLObj) (h : Reached env o) (op : Op) (hop : ParamOp op) (hs : op.IsStr) :
    applyOp env o op = applyOp env o (.search (spToStr (applyOp env o op).2.params)) := by
  have hl := ((Reached.op h hs).objOK (hostSpec_true _)).scalar
  show _ = setSearch env o _
  rw [setSearch_list env o hl]
  cases op <;> first | exact False.elim hop | rfl

/-- "http://h/?a=1&b=%41&a=3#f" -/
def searchUrl : URLObj :=
  ⟨{ scheme := u!"http", host := some (.str u!"h"), path := .list [[]], query := some u!"a=1&b=%41&a=3", fragment := some u!"f" },
    [(u!"a", u!"1"), (u!"b", u!"A"), (u!"a", u!"3")]⟩

theorem searchUrl_reached : Reached exEnv searchUrl :=
  .new (s := u!"http://h/?a=1&b=%41&a=3#f") (by decide) (by decide +kernel)

example : (applyOp exEnv searchUrl .spSort).2.href = u!"http://h/?a=1&a=3&b=A#f" ∧
    applyOp exEnv searchUrl .spSort = applyOp exEnv searchUrl (.search u!"a=1&a=3&b=A") := by
  refine ⟨by decide +kernel, ?_⟩
  rw [C105_operation searchUrl searchUrl_reached .spSort trivial trivial]
  have : spToStr (applyOp exEnv searchUrl .spSort).2.params = u!"a=1&a=3&b=A" := by decide +kernel
  rw [this]

/-- C105. Assigning the text of any list of pairs to `search`, with or without "?" in front, makes it the list of
`search_params`. -/
theorem C105_text (o : URLObj) {l : Params} (hl : ∀ p ∈ l, IsScalarStr p.1 ∧ IsScalarStr p.2) :
    (applyOp env o (.search (spToStr l))).1 = .ok () ∧ (applyOp env o (.search (spToStr l))).2.params = l ∧
    (applyOp env o (.search (u!"?" ++ spToStr l))).1 = .ok () ∧ (applyOp env o (.search (u!"?" ++ spToStr l))).2.params = l := by
  have e1 : applyOp env o (.search (spToStr l)) = (.ok (), ⟨spUpdate l o.url, l⟩) := setSearch_list env o hl
  have e2 : applyOp env o (.search (u!"?" ++ spToStr l)) =
      (.ok (), ⟨{ o.url with query := some (urlencode l) }, spOfQuery (some (urlencode l))⟩) := by
    show setSearch env o _ = _
    have hs := urlencode_querySafe o.url.isSpecial (ScalarPairs.isStr hl)
    have e : removeTabNewline (dropLead c!"?" (u!"?" ++ spToStr l)) = urlencode l := by
      show removeTabNewline (if 63 = 63 then spToStr l else 63 :: spToStr l) = _
      rw [if_pos rfl]
      exact noTab_print fun c hc => by have := querySafe_print (hs c hc); omega
    rw [setSearch_eq env o _ (by simp), e, (search_text hl o.url).2]
  rw [e1, e2]
  exact ⟨rfl, rfl, rfl, C07_parse_qsl_urlencode_scalar l hl⟩

example : (applyOp exEnv searchUrl (.search (u!"?" ++ spToStr [(u!"%41 &", u!"=~"), ([], [])]))).2.params =
    [(u!"%41 &", u!"=~"), ([], [])] :=
  (C105_text searchUrl (by unfold IsScalarStr; decide)).2.2.2

/-- the calls that empty `search_params` and fill it with the pairs of a list; names and values are percent-encoded -/
def refill (safe : Nat → Bool) (o : URLObj) (l : Params) : List Op :=
  o.params.map (fun p => .spDelete (utf8PercentEncode p.1 safe) none) ++
  l.map fun p => .spAppend (utf8PercentEncode p.1 safe) (.str (utf8PercentEncode p.2 safe))

theorem decName_encode {safe : Nat → Bool} (hsafe : safe c!"%" = false) {s : Str} (hs : IsScalarStr s) :
    decName (utf8PercentEncode s safe) = s := by
  unfold decName
  rw [C04_percent_decode_encode s hs.isStr safe hsafe, C01_utf8_round_trip_scalar s hs]

theorem spUpdate_again {u : Rec} {p : List Str} (hp : u.path = .list p) (l l' : Params) :
    spUpdate l (spUpdate l' u) = spUpdate l u ∧ (spUpdate l u).path = .list p := by
  have key : ∀ (m : Params) (v : Rec), v.path = .list p →
      spUpdate m v = { v with query := if (spToStr m).isEmpty then none else some (spToStr m) } := by
    intro m v hv
    unfold spUpdate
    dsimp only
    split
    · rw [rstrip_list (u := { v with query := none }) hv]
    · rfl
  refine ⟨?_, by rw [key l u hp]; exact hp⟩
  rw [key l u hp, key l' u hp]
  exact key l _ hp

theorem clear_params {safe : Nat → Bool} (hsafe : safe c!"%" = false) :
    ∀ (ns : Params) (o : URLObj), ScalarPairs ns →
      (applyOps env o (ns.map fun p => .spDelete (utf8PercentEncode p.1 safe) none)).params =
        o.params.filter fun q => ∀ p ∈ ns, q.1 ≠ p.1 := by
  intro ns
  induction ns with
  | nil => intro o _; exact (List.filter_eq_self.2 (by simp)).symm
  | cons n ns ih =>
    intro o h
    have := ih (applyOp env o (.spDelete (utf8PercentEncode n.1 safe) none)).2 (fun p hp => h p (by simp [hp]))
    unfold applyOps at this ⊢
    rw [List.map_cons, List.foldl_cons, this]
    have e : (applyOp env o (.spDelete (utf8PercentEncode n.1 safe) none)).2.params = o.params.filter fun q => q.1 ≠ n.1 := by
      show spDelete _ _ _ = _
      rw [spDelete_eq, decName_encode hsafe (h n (by simp)).1]
      apply List.filter_congr
      intro q _
      by_cases hq : q.1 = n.1 <;> simp [spMatch, hq]
    rw [e, List.filter_filter]
    apply List.filter_congr
    intro q _
    by_cases hq : q.1 = n.1 <;> simp [hq]

theorem fill_params {safe : Nat → Bool} (hsafe : safe c!"%" = false) :
    ∀ (l : Params) (o : URLObj), ScalarPairs l →
      (applyOps env o (l.map fun p => .spAppend (utf8PercentEncode p.1 safe) (.str (utf8PercentEncode p.2 safe)))).params =
        o.params ++ l := by
  intro l
  induction l with
  | nil => intro o _; simp [applyOps]
  | cons n l ih =>
    intro o h
    have := ih (applyOp env o (.spAppend (utf8PercentEncode n.1 safe) (.str (utf8PercentEncode n.2 safe)))).2
      (fun p hp => h p (by simp [hp]))
    unfold applyOps at this ⊢
    rw [List.map_cons, List.foldl_cons, this]
    have e : (applyOp env o (.spAppend (utf8PercentEncode n.1 safe) (.str (utf8PercentEncode n.2 safe)))).2.params =
        o.params ++ [n] := by
      show o.params ++ [(decName _, decName _)] = _
      rw [decName_encode hsafe (h n (by simp)).1]
      show o.params ++ [(n.1, decName (utf8PercentEncode n.2 safe))] = _
      rw [decName_encode hsafe (h n (by simp)).2]
    rw [e, List.append_assoc]
    rfl

theorem paramOps_url {p : List Str} (ops : List Op) (h : ∀ op ∈ ops, ParamOp op) (hne : ops ≠ []) :
    ∀ o : URLObj, o.url.path = .list p → (applyOps env o ops).url = spUpdate (applyOps env o ops).params o.url := by
  induction ops with
  | nil => exact absurd rfl hne
  | cons op ops ih =>
    intro o hp
    have e : ∃ m, (applyOp env o op).2 = ⟨spUpdate m o.url, m⟩ := by
      have := h op (by simp)
      cases op <;> first | exact False.elim this | exact ⟨_, rfl⟩
    obtain ⟨m, hm⟩ := e
    have e1 : applyOps env o (op :: ops) = applyOps env (⟨spUpdate m o.url, m⟩ : URLObj) ops := by
      unfold applyOps
      rw [List.foldl_cons, hm]
    rw [e1]
    by_cases hops : ops = []
    · rw [hops]; rfl
    · rw [ih (fun x hx => h x (by simp [hx])) hops _ (spUpdate_again hp m m).2]
      exact (spUpdate_again hp _ m).1

/-- C105. Every list of pairs can be made through `search_params`: delete the names that are there and append the pairs,
everything percent-encoded with a set that encodes "%". If the path is not opaque and there is anything to do, the URL is then
the one that assigning the text of the list to `search` gives. -/
theorem C105_every_list (o : URLObj) (h : Reached env o) {safe : Nat → Bool} (hsafe : safe c!"%" = false) {l : Params}
    (hl : ∀ p ∈ l, IsScalarStr p.1 ∧ IsScalarStr p.2) :
    (applyOps env o (refill safe o l)).params = l ∧
    (∀ p, o.url.path = .list p → (o.params ≠ [] ∨ l ≠ []) →
      applyOps env o (refill safe o l) = (applyOp env o (.search (spToStr l))).2) := by
  have e : applyOps env o (refill safe o l) = applyOps env
      (applyOps env o (o.params.map fun p => .spDelete (utf8PercentEncode p.1 safe) none))
      (l.map fun p => .spAppend (utf8PercentEncode p.1 safe) (.str (utf8PercentEncode p.2 safe))) := by
    unfold applyOps refill
    rw [List.foldl_append]
  have hpar : (applyOps env o (refill safe o l)).params = l := by
    rw [e, fill_params hsafe l _ hl, clear_params hsafe _ o (h.objOK (hostSpec_true _)).scalar]
    have : (o.params.filter fun q => ∀ p ∈ o.params, q.1 ≠ p.1) = [] := by
      rw [List.filter_eq_nil_iff]
      intro q hq
      simp only [decide_eq_true_eq]
      exact fun hh => hh q hq rfl
    rw [this, List.nil_append]
  refine ⟨hpar, ?_⟩
  intro p hp hne
  have hs : (applyOp env o (.search (spToStr l))).2 = ⟨spUpdate l o.url, l⟩ := by
    show (setSearch env o _).2 = _
    rw [setSearch_list env o hl]
  have hu := paramOps_url (env := env) (refill safe o l) (by
    intro op hop
    unfold refill at hop
    rcases List.mem_append.1 hop with hop | hop <;> obtain ⟨x, _, rfl⟩ := List.mem_map.1 hop <;> trivial) (by
    unfold refill
    intro e
    obtain ⟨e1, e2⟩ := List.append_eq_nil_iff.1 e
    rcases hne with h1 | h1
    · exact h1 (List.map_eq_nil_iff.1 e1)
    · exact h1 (List.map_eq_nil_iff.1 e2)) o hp
  rw [hs]
  rw [hpar] at hu
  revert hu hpar
  generalize applyOps env o (refill safe o l) = q
  intro hpar hu
  cases q
  simp only at hpar hu
  rw [hpar, hu]

example : applyOps exEnv searchUrl (refill (fun c => c != c!"%") searchUrl [(u!"%41", u!"é")]) =
    (applyOp exEnv searchUrl (.search u!"%2541=%C3%A9")).2 := by
  have h := (C105_every_list searchUrl searchUrl_reached (safe := fun c => c != c!"%") (by decide)
    (l := [(u!"%41", u!"é")]) (by unfold IsScalarStr; decide)).2 _ rfl (.inl (by decide))
  have : spToStr [(u!"%41", u!"é")] = u!"%2541=%C3%A9" := by decide +kernel
  rwa [this] at h

/-- Without percent-encoding the name "%41" cannot be appended, and the path has to be non-opaque: deleting the last parameter
strips the spaces at its end. -/
theorem C105_false :
    (∀ o : URLObj, (u!"%41", u!"1") ∉ (applyOp exEnv { o with params := [] } (.spAppend u!"%41" (.str u!"1"))).2.params) ∧
    (∃ o, Reached exEnv o ∧ o.href = u!"foo:x ?a=1" ∧
      (applyOps exEnv o (refill (fun c => c != c!"%") o [(u!"b", u!"2")])).href = u!"foo:x?b=2" ∧
      (applyOp exEnv o (.search (spToStr [(u!"b", u!"2")]))).2.href = u!"foo:x ?b=2") := by
  refine ⟨?_, ⟨{ scheme := u!"foo", path := .opaque u!"x ", query := some u!"a=1" }, [(u!"a", u!"1")]⟩,
    .new (s := u!"foo:x ?a=1") (by decide) (by decide +kernel), by decide +kernel, by decide +kernel, by decide +kernel⟩
  intro o
  show _ ∉ [(decName u!"%41", decName u!"1")]
  decide +kernel

end Urlstd.Props
