/-
C110: equal URLs are interchangeable as bases.
-/
import Verif.Props.Denote
import Verif.Props.Origin

namespace Urlstd.Props

open Spec (IsStr Denotes FileText Relative HasScheme)

/-- the same but for the fragment and the upper bits of an IPv4 host -/
structure BaseSim (u v : Rec) : Prop where
  scheme : u.scheme = v.scheme
  username : u.username = v.username
  password : u.password = v.password
  host : u.host.map Host.canon = v.host.map Host.canon
  port : u.port = v.port
  path : u.path = v.path
  query : u.query = v.query

/-- the same failure, or URLs that are the same but for the upper bits of an IPv4 host -/
def ResSim : Except Err Rec → Except Err Rec → Prop
  | .ok a, .ok b => BaseSim a b ∧ a.fragment = b.fragment
  | .error e, .error e' => e = e'
  | _, _ => False

theorem ResSim.refl (x : Except Err Rec) : ResSim x x := by
  cases x with
  | error e => rfl
  | ok a => exact ⟨⟨rfl, rfl, rfl, rfl, rfl, rfl, rfl⟩, rfl⟩

private theorem relative_sim {env : Env} {u v : Rec} (h : BaseSim u v) {r : Str} {x : Except Err Rec} (hx : Relative env u r x) :
    ∃ x', Relative env v r x' ∧ ResSim x x' := by
  cases hx with
  | same q f ok =>
    refine ⟨_, .same q f ok, ⟨h.scheme, h.username, h.password, h.host, h.port, h.path, ?_⟩, rfl⟩
    dsimp only
    rw [h.scheme, h.query]
  | path p t q f hp hne ht ok =>
    rw [h.scheme] at ht
    refine ⟨_, .path p t q f (by rw [← h.path, hp]) hne ht ok, ⟨h.scheme, h.username, h.password, h.host, h.port, ?_, ?_⟩, rfl⟩ <;>
      (dsimp only; rw [h.scheme])
  | rooted s t q f hs ht ok =>
    rw [h.scheme] at ht hs
    refine ⟨_, .rooted s t q f hs ht ok, ⟨h.scheme, h.username, h.password, h.host, h.port, ?_, ?_⟩, rfl⟩ <;>
      (dsimp only; rw [h.scheme])
  | authority s1 s2 sl p h1 h2 hsl ok =>
    rw [h.scheme] at h1 h2 hsl ok ⊢
    exact ⟨_, .authority s1 s2 sl p h1 h2 hsl ok, ResSim.refl _⟩

private theorem inherited_sim {u v : Rec} (h : BaseSim u v) (t : Str) :
    (Spec.inheritedHost (some u)).map Host.canon = (Spec.inheritedHost (some v)).map Host.canon ∧
    Spec.inheritedDrive (some u) t = Spec.inheritedDrive (some v) t := by
  unfold Spec.inheritedHost Spec.inheritedDrive
  dsimp only
  rw [h.scheme, h.path]
  refine ⟨?_, rfl⟩
  split
  · exact h.host
  · rfl

private theorem fileURL_sim {a b : Option Host} (h : a.map Host.canon = b.map Host.canon) (p : List Str) (q f : Option Str) :
    ResSim (.ok (Spec.fileURL a p q f)) (.ok (Spec.fileURL b p q f)) :=
  ⟨⟨rfl, rfl, rfl, h, rfl, rfl, rfl⟩, rfl⟩

private theorem fileText_sim {env : Env} {u v : Rec} (h : BaseSim u v) {r : Str} {x : Except Err Rec}
    (hx : FileText env (some u) r x) : ∃ x', FileText env (some v) r x' ∧ ResSim x x' := by
  cases hx with
  | noHost s1 s2 path q f h1 h2 hp ok => exact ⟨_, .noHost s1 s2 path q f h1 h2 hp ok, ResSim.refl _⟩
  | host s1 s2 host path q f w h1 h2 hne hh hd hv hp ok => exact ⟨_, .host s1 s2 host path q f w h1 h2 hne hh hd hv hp ok, ResSim.refl _⟩
  | badHost s1 s2 host path q f e h1 h2 hne hh hd he hp ok => exact ⟨_, .badHost s1 s2 host path q f e h1 h2 hne hh hd he hp ok, ResSim.refl _⟩
  | drive s1 s2 host path q f h1 h2 hd hp ok => exact ⟨_, .drive s1 s2 host path q f h1 h2 hd hp ok, ResSim.refl _⟩
  | rooted s t q f hs ht ok =>
    refine ⟨_, .rooted s t q f hs ht ok, ?_⟩
    obtain ⟨a, b⟩ := inherited_sim h t
    rw [b]
    exact fileURL_sim a _ _ _
  | plain t q f hb ht ok =>
    exact ⟨_, .plain t q f (fun b hb' => by cases hb'; rw [← h.scheme]; exact hb u rfl) ht ok, ResSim.refl _⟩
  | path b p t q f hbase hb hp hne ht ok =>
    cases hbase
    exact ⟨_, .path v p t q f rfl (by rw [← h.scheme, hb]) (by rw [← h.path, hp]) hne ht ok, fileURL_sim h.host _ _ _⟩
  | same b q f hbase hb hne ok =>
    cases hbase
    refine ⟨_, .same v q f rfl (by rw [← h.scheme, hb]) hne ok, ⟨rfl, rfl, rfl, h.host, rfl, h.path, ?_⟩, rfl⟩
    dsimp only
    rw [h.query]
  | empty b p hbase hb hp =>
    cases hbase
    exact ⟨_, .empty v p rfl (by rw [← h.scheme, hb]) (by rw [← h.path, hp]), ⟨rfl, rfl, rfl, h.host, rfl, rfl, h.query⟩, rfl⟩

private theorem denotes_sim {env : Env} {u v : Rec} (h : BaseSim u v) {r : Str} {x : Except Err Rec}
    (hx : Denotes env (some u) r x) : ∃ x', Denotes env (some v) r x' ∧ ResSim x x' := by
  cases hx with
  | file sc r x hsc hf hx =>
    obtain ⟨x', h1, h2⟩ := fileText_sim h hx
    exact ⟨x', .file sc r x' hsc hf h1, h2⟩
  | special sc sl p hsc hs hf hb hsl ok =>
    exact ⟨_, .special sc sl p hsc hs hf (fun b hb' => by cases hb'; rw [← h.scheme]; exact hb u rfl) hsl ok, ResSim.refl _⟩
  | specialSlashes sc sl p hsc hs hf hsl ok => exact ⟨_, .specialSlashes sc sl p hsc hs hf hsl ok, ResSim.refl _⟩
  | sameScheme sc r b x hsc hs hf hbase hb h2 hx =>
    cases hbase
    obtain ⟨x', k1, k2⟩ := relative_sim h hx
    exact ⟨x', .sameScheme sc r v x' hsc hs hf rfl (by rw [← h.scheme, hb]) h2 k1, k2⟩
  | authority sc p hsc hs ok => exact ⟨_, .authority sc p hsc hs ok, ResSim.refl _⟩
  | rooted sc t q f hsc hs ht ok => exact ⟨_, .rooted sc t q f hsc hs ht ok, ResSim.refl _⟩
  | «opaque» sc t q f hsc hs ht ok => exact ⟨_, .opaque sc t q f hsc hs ht ok, ResSim.refl _⟩
  | noBase r hr hb => cases hb
  | opaqueFragment f b t hbase hp =>
    cases hbase
    exact ⟨_, .opaqueFragment f v t rfl (by rw [← h.path, hp]), ⟨h.scheme, rfl, rfl, rfl, rfl, h.path, h.query⟩, rfl⟩
  | opaqueOther r b t hr hbase hp hh =>
    cases hbase
    exact ⟨_, .opaqueOther _ v t hr rfl (by rw [← h.path, hp]) hh, rfl⟩
  | fileBase r b p x hr hbase hp hf hx =>
    cases hbase
    obtain ⟨x', k1, k2⟩ := fileText_sim h hx
    exact ⟨x', .fileBase _ v p x' hr rfl (by rw [← h.path, hp]) (by rw [← h.scheme, hf]) k1, k2⟩
  | reference r b p x hr hbase hp hf hx =>
    cases hbase
    obtain ⟨x', k1, k2⟩ := relative_sim h hx
    exact ⟨x', .reference _ v p x' hr rfl (by rw [← h.path, hp]) (by rw [← h.scheme]; exact hf) k1, k2⟩

private theorem parse_sim (env : Env) {u v : Rec} (h : BaseSim u v) (hu : Spec.GoodBase (some u)) (s : Str) (hs : IsStr s) :
    ResSim (parseUrl env s (.record u)).res (parseUrl env s (.record v)).res := by
  have hv : Spec.GoodBase (some v) := by
    intro b hb hsp
    cases hb
    rw [← h.scheme] at hsp
    obtain ⟨p, hp⟩ := hu u rfl hsp
    exact ⟨p, by rw [← h.path, hp]⟩
  have d := (C83_denotes env s (some u) hs hu _).1 rfl
  obtain ⟨x', d', hr⟩ := denotes_sim h d
  have e := (C83_denotes env s (some v) hs hv x').2 d'
  have e' : (parseUrl env s (.record v)).res = x' := e
  rw [e']
  exact hr

private theorem sim_serialize {a b : Rec} (h : BaseSim a b) (hf : a.fragment = b.fragment) : a.serialize = b.serialize := by
  have : a.canon = b.canon := by
    cases a
    cases b
    obtain ⟨h1, h2, h3, h4, h5, h6, h7⟩ := h
    dsimp only at h1 h2 h3 h4 h5 h6 h7 hf
    subst h1 h2 h3 h5 h6 h7 hf
    unfold Rec.canon
    dsimp only
    rw [h4]
  rw [← serialize_canon a, ← serialize_canon b, this]

private theorem canon_sim {u v : Rec} (f : Option Str) (h : ({ u with fragment := f } : Rec).canon = ({ v with fragment := f } : Rec).canon) :
    BaseSim u v :=
  ⟨(congrArg Rec.scheme h :), (congrArg Rec.username h :), (congrArg Rec.password h :), (congrArg Rec.host h :), (congrArg Rec.port h :),
    (congrArg Rec.path h :), (congrArg Rec.query h :)⟩

private theorem wf_marked {env : Env} {u : Rec} (h : WF false (HostWF env) u) : WF false (HostWF env) { u with fragment := some [] } := by
  refine ⟨?_, h.path, h.query, ?_, ?_⟩
  · exact ⟨h.auth.scheme, h.auth.user, h.auth.pass, h.auth.port, h.auth.host, h.auth.special, h.auth.null, h.auth.loose, h.auth.file⟩
  · intro f hf
    cases hf
    intro c hc
    cases hc
  · intro s _ _ hf
    cases hf

private theorem serialize_marked (u : Rec) : ({ u with fragment := some [] } : Rec).serialize = u.serialize true ++ u!"#" := by
  unfold Rec.serialize
  simp only [Bool.false_eq_true, if_false, if_true, List.append_nil]
  rfl

private theorem equals_sim {env : Env} (he : EnvOK env) (hi : IdnaOK env) {o o' : URLObj} (h : Reached env o) (h' : Reached env o')
    (heq : o.url.equals o'.url true = true) : BaseSim o.url o'.url := by
  simp only [Rec.equals, beq_iff_eq] at heq
  refine canon_sim (some []) (serialize_determines (env := env.quiet) he hi.quiet (wf_marked (h.objOK (hostSpec_wf hi.quiet)).url)
    (wf_marked (h'.objOK (hostSpec_wf hi.quiet)).url) ?_)
  rw [serialize_marked, serialize_marked, heq]

/-- C110. Equal URLs are interchangeable as bases, and it is enough that they are equal but for the fragment: with either of them the
constructor fails in the same way, or it gives URLs that are equal, fragments included, and have the same search parameters. The URLs
may have any past. -/
theorem C110_fragment (env : Env) (he : EnvOK env) (hi : IdnaOK env) (o o' : URLObj) (h : Reached env o) (h' : Reached env o')
    (heq : o.url.equals o'.url true = true) (s : Str) (hs : IsStr s) :
    (∃ e, URLObj.new env s (.url o) = .error e ∧ URLObj.new env s (.url o') = .error e) ∨
    ∃ a b, URLObj.new env s (.url o) = .ok a ∧ URLObj.new env s (.url o') = .ok b ∧ a.url.equals b.url = true ∧ a.params = b.params := by
  have hsim := equals_sim he hi h h' heq
  have key := parse_sim env.quiet hsim (reached_base h) s hs
  unfold URLObj.new UrlBase.arg
  dsimp only
  cases e1 : (parseUrl env.quiet s (.record o.url)).res with
  | error e =>
    cases e2 : (parseUrl env.quiet s (.record o'.url)).res with
    | error e' =>
      rw [e1, e2] at key
      have : e = e' := key
      subst this
      exact .inl ⟨e, rfl, rfl⟩
    | ok b => rw [e1, e2] at key; exact False.elim key
  | ok a =>
    cases e2 : (parseUrl env.quiet s (.record o'.url)).res with
    | error e' => rw [e1, e2] at key; exact False.elim key
    | ok b =>
      rw [e1, e2] at key
      obtain ⟨k1, k2⟩ := key
      refine .inr ⟨_, _, rfl, rfl, ?_, ?_⟩
      · simp only [Rec.equals, beq_iff_eq]
        exact sim_serialize k1 k2
      · dsimp only
        rw [k1.query]

/-- C110. In particular URLs that are equal are interchangeable as bases. -/
theorem C110_base (env : Env) (he : EnvOK env) (hi : IdnaOK env) (o o' : URLObj) (h : Reached env o) (h' : Reached env o')
    (heq : o.url.equals o'.url = true) (s : Str) (hs : IsStr s) :
    (∃ e, URLObj.new env s (.url o) = .error e ∧ URLObj.new env s (.url o') = .error e) ∨
    ∃ a b, URLObj.new env s (.url o) = .ok a ∧ URLObj.new env s (.url o') = .ok b ∧ a.url.equals b.url = true ∧ a.params = b.params := by
  refine C110_fragment env he hi o o' h h' ?_ s hs
  rw [C57_exclude_fragments_iff env hi o o' h h', (C57_equals_href o o').1 heq]

/-- "http://256.256/a" and "http://0.0.1.0/a" -/
private def big : URLObj := ⟨{ scheme := u!"http", host := some (.ipv4 (2 ^ 32 + 256)), path := .list [u!"a"] }, []⟩
private def small : URLObj := ⟨{ scheme := u!"http", host := some (.ipv4 256), path := .list [u!"a"] }, []⟩

/-- the two are equal although their hosts are stored as different numbers -/
example : (∃ e, URLObj.new exEnv u!"b?c" (.url big) = .error e ∧ URLObj.new exEnv u!"b?c" (.url small) = .error e) ∨
    ∃ a b, URLObj.new exEnv u!"b?c" (.url big) = .ok a ∧ URLObj.new exEnv u!"b?c" (.url small) = .ok b ∧ a.url.equals b.url = true ∧
      a.params = b.params :=
  C110_base exEnv (.inr (by decide)) exEnv_idna big small (.new (s := u!"http://256.256/a") (by decide) (by decide +kernel))
    (.new (s := u!"http://0.0.1.0/a") (by decide) (by decide +kernel)) (by decide +kernel)
    _ (by decide)

/-- "http://256.256/a#x": a fragment makes no difference -/
private def bigX : URLObj := ⟨{ big.url with fragment := some u!"x" }, []⟩

example : (∃ e, URLObj.new exEnv u!"b?c" (.url bigX) = .error e ∧ URLObj.new exEnv u!"b?c" (.url small) = .error e) ∨
    ∃ a b, URLObj.new exEnv u!"b?c" (.url bigX) = .ok a ∧ URLObj.new exEnv u!"b?c" (.url small) = .ok b ∧ a.url.equals b.url = true ∧
      a.params = b.params :=
  C110_fragment exEnv (.inr (by decide)) exEnv_idna bigX small (.new (s := u!"http://256.256/a#x") (by decide) (by decide +kernel))
    (.new (s := u!"http://0.0.1.0/a") (by decide) (by decide +kernel)) (by decide +kernel) _ (by decide)

end Urlstd.Props
