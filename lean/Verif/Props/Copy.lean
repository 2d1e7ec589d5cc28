/-
Property C104: a URL can be copied attribute by attribute.
-/
import Verif.Lemmas.Copy
import Verif.Props.Generic

namespace Urlstd.Props

open Spec (IsStr Special)

variable {env : Env}

/-- `p.a = o.a` for each attribute of a list, in this order -/
def copying (o : URLObj) (as : List Attr) : List Op := as.map fun a => a.set (a.get o)

theorem hasHost_of {o : URLObj} (h : o.hostname ≠ []) : HasHost o.url := by
  constructor <;> intro e <;> apply h <;> unfold URLObj.hostname Rec.serializeHost <;> rw [e] <;> rfl

theorem copy_strict {u : Rec} {P : Bool → Host → Prop} (h : WF false P u) (n : HasHost u) (hf : u.scheme ≠ u!"file") : WF true P u := by
  refine h.strict ?_
  rintro (⟨_, e | e⟩ | ⟨e, _⟩)
  · exact n.2 e
  · exact hf e
  · exact hf e

theorem copy_start (hi : IdnaOK env) {o p : URLObj} (ho : Reached env o) (hp : Reached env p)
    (hs : Special o.url.scheme ↔ Special p.url.scheme) (hf : o.protocol ≠ u!"file:") (hf' : p.protocol ≠ u!"file:")
    (no : o.hostname ≠ []) (np : p.hostname ≠ []) :
    WF true (HostWF env.quiet) o.url ∧ o.url.scheme ≠ u!"file" ∧ (applyOp env p (.protocol o.protocol)).1 = .ok () ∧
    CopyInv env.quiet (copyRec o.url) [] (applyOp env p (.protocol o.protocol)).2 := by
  have ne : ∀ x : URLObj, x.protocol ≠ u!"file:" → x.url.scheme ≠ u!"file" := by
    intro x hx e
    apply hx
    unfold URLObj.protocol
    rw [e]
    rfl
  have f1 := ne o hf
  have hw := copy_strict (reached_wf hi ho) (hasHost_of no) f1
  have hsp : o.url.isSpecial = p.url.isSpecial := by
    unfold Rec.isSpecial
    rw [Bool.eq_iff_iff, special_iff, special_iff]; exact hs
  obtain ⟨k1, k2, k3⟩ := copy_protocol env hw hsp f1 (ne p hf')
  have hq : Reached env (applyOp env p (.protocol o.protocol)).2 := by
    refine .op hp ?_
    show IsStr _
    intro c hc
    unfold URLObj.protocol at hc
    rcases List.mem_append.1 hc with hc | hc
    · have := hw.auth.scheme.print c hc; omega
    · have : c = 58 := by simpa using hc
      omega
  have nq : HasHost (applyOp env p (.protocol o.protocol)).2.url := by
    unfold HasHost
    rw [k3]
    exact hasHost_of np
  refine ⟨hw, f1, k1, ⟨copy_strict (reached_wf hi hq) nq (k2 ▸ f1), (hq.objOK (hostSpec_wf hi.quiet)).params, k2, nq, ?_, ?_, ?_, ?_, ?_, ?_, ?_⟩⟩
  all_goals exact fun h => absurd h (by simp)

theorem copied_attr {o q : URLObj} (e : q.url = copyRec o.url) : ∀ a, a ≠ Attr.href → a.get q = a.get o := by
  have hh : q.url.host = o.url.host.map Host.canon := by rw [e]; exact canon_host o.url
  have hport : q.url.port = o.url.port := by rw [e]; rfl
  have hsp : q.url.serializePort = o.url.serializePort := by unfold Rec.serializePort; rw [hport]
  intro a ha
  cases a with
  | href => exact absurd rfl ha
  | protocol => show q.url.scheme ++ _ = _; rw [e]; rfl
  | username => show q.url.username = _; rw [e]; rfl
  | password => show q.url.password = _; rw [e]; rfl
  | host =>
    show q.host = o.host
    unfold URLObj.host
    rw [hh, hsp]
    cases o.url.host with
    | none => rfl
    | some x => simp only [Option.map_some]; rw [hostSerialize_canon]
  | hostname =>
    show q.hostname = o.hostname
    unfold URLObj.hostname Rec.serializeHost
    rw [hh]
    cases o.url.host with
    | none => rfl
    | some x => simp only [Option.map_some]; rw [hostSerialize_canon]
  | port => show q.port = o.port; unfold URLObj.port; rw [hport]
  | pathname => show serializePath q.url.path = _; rw [e]; rfl
  | search =>
    show q.search = o.search
    unfold URLObj.search
    have : q.url.query = ownShown o.url.query := by rw [e]; rfl
    rw [this]
    unfold ownShown
    cases o.url.query with
    | none => rfl
    | some s => cases s <;> rfl
  | hash =>
    show q.hash = o.hash
    unfold URLObj.hash
    have : q.url.fragment = ownShown o.url.fragment := by rw [e]; rfl
    rw [this]
    unfold ownShown
    cases o.url.fragment with
    | none => rfl
    | some s => cases s <;> rfl

theorem copied_params (o : URLObj) : spOfQuery (copyRec o.url).query = spOfQuery o.url.query := by
  show spOfQuery (ownShown o.url.query) = _
  unfold ownShown
  cases o.url.query with
  | none => rfl
  | some s => cases s <;> rfl

theorem copied_href {o q : URLObj} (e : q.url = copyRec o.url) :
    q.href = o.href ↔ o.url.query ≠ some [] ∧ o.url.fragment ≠ some [] := by
  unfold URLObj.href
  rw [e]
  have : copyRec o.url = ({ o.url with query := ownShown o.url.query, fragment := ownShown o.url.fragment } : Rec).canon := rfl
  rw [this, serialize_canon]
  constructor
  · intro h
    have hl := congrArg List.length h
    have hd : ({ o.url with query := ownShown o.url.query, fragment := ownShown o.url.fragment } : Rec).needsDot = o.url.needsDot := rfl
    have hc : ({ o.url with query := ownShown o.url.query, fragment := ownShown o.url.fragment } : Rec).serializeCredentials =
      o.url.serializeCredentials := rfl
    have hport : ({ o.url with query := ownShown o.url.query, fragment := ownShown o.url.fragment } : Rec).serializePort =
      o.url.serializePort := rfl
    unfold Rec.serialize at hl
    rw [hd, hc, hport] at hl
    simp only [List.length_append, if_neg (show ¬ (false = true) by simp)] at hl
    have n0 : ownShown none = none := rfl
    have n1 : ownShown (some []) = none := rfl
    have n2 : ∀ a l, ownShown (some (a :: l)) = some (a :: l) := fun _ _ => rfl
    constructor <;> intro h0 <;> rw [h0, n1] at hl
    · cases hfr : o.url.fragment with
      | none => rw [hfr, n0] at hl; simp only [List.length_cons, List.length_nil] at hl; omega
      | some f =>
        rw [hfr] at hl
        cases f with
        | nil => rw [n1] at hl; simp only [List.length_cons, List.length_nil] at hl; omega
        | cons a l => rw [n2] at hl; simp only [List.length_cons, List.length_nil] at hl; omega
    · cases hfr : o.url.query with
      | none => rw [hfr, n0] at hl; simp only [List.length_cons, List.length_nil] at hl; omega
      | some f =>
        rw [hfr] at hl
        cases f with
        | nil => rw [n1] at hl; simp only [List.length_cons, List.length_nil] at hl; omega
        | cons a l => rw [n2] at hl; simp only [List.length_cons, List.length_nil] at hl; omega
  · rintro ⟨hq, hfr⟩
    rw [ownShown_eq.2 hq, ownShown_eq.2 hfr]

theorem copy_url (he : EnvOK env) (hi : IdnaOK env) {o p : URLObj} (ho : Reached env o) (hp : Reached env p)
    (hs : Special o.url.scheme ↔ Special p.url.scheme) (hf : o.protocol ≠ u!"file:") (hf' : p.protocol ≠ u!"file:")
    (no : o.hostname ≠ []) (np : p.hostname ≠ []) (as : List Attr) (h1 : Attr.href ∉ as)
    (h2 : ∀ a ∈ [Attr.username, .password, .hostname, .port, .pathname, .search, .hash], a ∈ as) :
    (applyOps env p (copying o (.protocol :: as))).url = copyRec o.url ∧
    (applyOps env p (copying o (.protocol :: as))).params = spOfQuery (copyRec o.url).query := by
  obtain ⟨hw, f1, k1, k2⟩ := copy_start hi ho hp hs hf hf' no np
  have hcons : applyOps env p (copying o (.protocol :: as)) =
      applyOps env (applyOp env p (.protocol o.protocol)).2 (as.map fun a => a.set (a.get o)) := rfl
  rw [hcons]
  have inv := copy_all he hi hw (hasHost_of no) f1 as (by rintro x hx rfl; exact h1 hx) k2
  generalize applyOps env (applyOp env p (.protocol o.protocol)).2 (as.map fun a => a.set (a.get o)) = q at inv
  have hm : ∀ a ∈ [Attr.username, .password, .hostname, .port, .pathname, .search, .hash], a ∈ as.reverse ++ [] := by
    intro a ha
    simpa using h2 a ha
  have e : q.url = copyRec o.url := by
    have i1 := inv.scheme
    have i2 := inv.user (hm _ (by simp))
    have i3 := inv.pass (hm _ (by simp))
    have i4 := inv.host (hm _ (by simp))
    have i5 := inv.port (hm _ (by simp))
    have i6 := inv.path (hm _ (by simp))
    have i7 := inv.query (hm _ (by simp))
    have i8 := inv.frag (hm _ (by simp))
    revert i1 i2 i3 i4 i5 i6 i7 i8
    generalize copyRec o.url = t
    generalize q.url = u
    cases u
    cases t
    simp only
    rintro rfl rfl rfl rfl rfl rfl rfl rfl
    rfl
  exact ⟨e, by rw [inv.params, e]⟩

/-- C104. Let `o` and `p` be URLs with a host, both special or both not, and neither a file URL. Assign `o.protocol` to `p`
and then the other attributes of `o`, in any order and with any repetitions. No assignment raises, and afterwards every
attribute of `p` other than `href`, and `search_params`, is that of `o`. -/
theorem C104_copy (he : EnvOK env) (hi : IdnaOK env) {o p : URLObj} (ho : Reached env o) (hp : Reached env p)
    (hs : Special o.url.scheme ↔ Special p.url.scheme) (hf : o.protocol ≠ u!"file:") (hf' : p.protocol ≠ u!"file:")
    (no : o.hostname ≠ []) (np : p.hostname ≠ []) (as : List Attr) (h1 : Attr.href ∉ as)
    (h2 : ∀ a ∈ [Attr.username, .password, .hostname, .port, .pathname, .search, .hash], a ∈ as) :
    (∀ bs a cs, Attr.protocol :: as = bs ++ a :: cs → (applyOp env (applyOps env p (copying o bs)) (a.set (a.get o))).1 = .ok ()) ∧
    (∀ a, a ≠ Attr.href → a.get (applyOps env p (copying o (.protocol :: as))) = a.get o) ∧
    (applyOps env p (copying o (.protocol :: as))).params = o.params := by
  obtain ⟨hw, f1, k1, k2⟩ := copy_start hi ho hp hs hf hf' no np
  have no' := hasHost_of no
  have hcons : ∀ bs, applyOps env p (copying o (.protocol :: bs)) =
      applyOps env (applyOp env p (.protocol o.protocol)).2 (bs.map fun a => a.set (a.get o)) := fun bs => rfl
  refine ⟨?_, ?_⟩
  · intro bs a cs e
    cases bs with
    | nil =>
      obtain ⟨rfl, _⟩ := List.cons.inj e
      exact k1
    | cons b bs =>
      obtain ⟨rfl, e2⟩ := List.cons.inj e
      have e2 : as = bs ++ a :: cs := e2
      have hm : ∀ x ∈ bs ++ [a], x ≠ Attr.href := by
        rintro x hx rfl
        apply h1
        rw [e2]
        rcases List.mem_append.1 hx with hx | hx
        · exact List.mem_append.2 (.inl hx)
        · exact List.mem_append.2 (.inr (by rw [List.mem_singleton.1 hx]; simp))
      rw [hcons]
      have inv := copy_all he hi hw no' f1 bs (fun x hx => hm x (by simp [hx])) k2
      obtain ⟨q, hq, _⟩ := copy_step he hi hw no' f1 inv (hm a (by simp))
      rw [hq]
  · rw [hcons]
    obtain ⟨e, epar⟩ := copy_url he hi ho hp hs hf hf' no np as h1 h2
    rw [hcons] at e epar
    generalize applyOps env (applyOp env p (.protocol o.protocol)).2 (as.map fun a => a.set (a.get o)) = q at e epar
    refine ⟨?_, ?_⟩
    · exact fun a ha => copied_attr e a ha
    · rw [epar, (ho.objOK (hostSpec_wf hi.quiet)).params]
      exact copied_params o

/-- C104. `href` is that of `o` as well, except that "?" and "#" with nothing behind them are not copied. -/
theorem C104_href (he : EnvOK env) (hi : IdnaOK env) {o p : URLObj} (ho : Reached env o) (hp : Reached env p)
    (hs : Special o.url.scheme ↔ Special p.url.scheme) (hf : o.protocol ≠ u!"file:") (hf' : p.protocol ≠ u!"file:")
    (no : o.hostname ≠ []) (np : p.hostname ≠ []) (as : List Attr) (h1 : Attr.href ∉ as)
    (h2 : ∀ a ∈ [Attr.username, .password, .hostname, .port, .pathname, .search, .hash], a ∈ as) :
    (applyOps env p (copying o (.protocol :: as))).href = o.href ↔ o.url.query ≠ some [] ∧ o.url.fragment ≠ some [] := by
  obtain ⟨e, _⟩ := copy_url he hi ho hp hs hf hf' no np as h1 h2
  exact copied_href e

/-- "https://user:pw@a:80/x/%41?q=1#f" -/
def copySource : URLObj :=
  ⟨{ scheme := u!"https", username := u!"user", password := u!"pw", host := some (.str u!"a"), port := some 80,
     path := .list [u!"x", u!"%41"], query := some u!"q=1", fragment := some u!"f" }, [(u!"q", u!"1")]⟩
/-- "http://b:443/y?z" -/
def copyTarget : URLObj :=
  ⟨{ scheme := u!"http", host := some (.str u!"b"), port := some 443, path := .list [u!"y"], query := some u!"z" }, [(u!"z", [])]⟩

theorem copySource_reached : Reached exEnv copySource :=
  .new (s := u!"https://user:pw@a:80/x/%41?q=1#f") (by decide) (by decide +kernel)
theorem copyTarget_reached : Reached exEnv copyTarget :=
  .new (s := u!"http://b:443/y?z") (by decide) (by decide +kernel)

example : (applyOps exEnv copyTarget (copying copySource
    [.protocol, .hash, .search, .pathname, .port, .hostname, .password, .username, .host])).href = copySource.href :=
  (C104_href (.inr (by decide)) exEnv_idna copySource_reached copyTarget_reached
    (by rw [← special_iff, ← special_iff]; decide) (by decide) (by decide) (by decide) (by decide)
    [.hash, .search, .pathname, .port, .hostname, .password, .username, .host] (by decide) (by decide)).2 (by decide)

example : (applyOps exEnv copyTarget (copying copySource
    [.protocol, .username, .password, .hostname, .port, .pathname, .search, .hash])).params = [(u!"q", u!"1")] :=
  (C104_copy (.inr (by decide)) exEnv_idna copySource_reached copyTarget_reached
    (by rw [← special_iff, ← special_iff]; decide) (by decide) (by decide) (by decide) (by decide)
    [.username, .password, .hostname, .port, .pathname, .search, .hash] (by decide) (by decide)).2.2

/-- C104 for file URLs. Credentials and ports do not occur; the host may be empty. `Deviant` (C46) excludes the file URLs that
only setters make. -/
theorem C104_file (he : EnvOK env) (hi : IdnaOK env) {o p : URLObj} (ho : Reached env o) (hp : Reached env p)
    (hf : o.url.scheme = u!"file") (hf' : p.url.scheme = u!"file") (ho' : ¬ Spec.Deviant o.url) (hp' : ¬ Spec.Deviant p.url)
    (as : List Attr) (h1 : Attr.href ∉ as) (h2 : ∀ a ∈ [Attr.hostname, .pathname, .search, .hash], a ∈ as) :
    (∀ bs a cs, as = bs ++ a :: cs → (applyOp env (applyOps env p (copying o bs)) (a.set (a.get o))).1 = .ok ()) ∧
    (∀ a, a ≠ Attr.href → a.get (applyOps env p (copying o as)) = a.get o) ∧
    (applyOps env p (copying o as)).params = o.params ∧
    ((applyOps env p (copying o as)).href = o.href ↔ o.url.query ≠ some [] ∧ o.url.fragment ≠ some []) := by
  have ok := hp.objOK (hostSpec_wf hi.quiet)
  have hw := (reached_wf hi ho).strict ho'
  have k : FileCopy env.quiet (copyRec o.url) [] p :=
    ⟨ok.url.strict hp', ok.params, hf', fun h => absurd h (by simp), fun h => absurd h (by simp), fun h => absurd h (by simp),
      fun h => absurd h (by simp)⟩
  refine ⟨?_, ?_⟩
  · intro bs a cs e
    have inv := file_all he hi hw hf bs (by rintro x hx rfl; apply h1; rw [e]; exact List.mem_append.2 (.inl hx)) k
    obtain ⟨q, hq, _⟩ := file_step he hi hw hf inv (a := a) (by rintro rfl; apply h1; rw [e]; simp)
    unfold copying
    rw [hq]
  · have inv := file_all he hi hw hf as (by rintro x hx rfl; exact h1 hx) k
    unfold copying
    generalize applyOps env p (as.map fun a => a.set (a.get o)) = q at inv
    have hm : ∀ a ∈ [Attr.hostname, .pathname, .search, .hash], a ∈ as.reverse ++ [] := by
      intro a ha
      simpa using h2 a ha
    have e : q.url = copyRec o.url := by
      obtain ⟨b1, b2, b3⟩ := inv.wf.auth.bare (.inr (.inr inv.scheme))
      obtain ⟨c1, c2, c3⟩ := hw.auth.bare (.inr (.inr hf))
      have i1 : q.url.scheme = (copyRec o.url).scheme := inv.scheme.trans hf.symm
      have i2 : q.url.username = (copyRec o.url).username := b1.trans c1.symm
      have i3 : q.url.password = (copyRec o.url).password := b2.trans c2.symm
      have i4 := inv.host (hm _ (by simp))
      have i5 : q.url.port = (copyRec o.url).port := b3.trans c3.symm
      have i6 := inv.path (hm _ (by simp))
      have i7 := inv.query (hm _ (by simp))
      have i8 := inv.frag (hm _ (by simp))
      clear b1 b2 b3 c1 c2 c3
      revert i1 i2 i3 i4 i5 i6 i7 i8
      generalize copyRec o.url = t
      generalize q.url = u
      cases u
      cases t
      simp only
      rintro rfl rfl rfl rfl rfl rfl rfl rfl
      rfl
    refine ⟨fun a ha => copied_attr e a ha, ?_, copied_href e⟩
    rw [inv.params, (ho.objOK (hostSpec_wf hi.quiet)).params, e]
    exact copied_params o

/-- "file://h/C:/x?q" -/
def copyFile : URLObj :=
  ⟨{ scheme := u!"file", host := some (.str u!"h"), path := .list [u!"C:", u!"x"], query := some u!"q" }, [(u!"q", [])]⟩
/-- "file:///" -/
def copyRoot : URLObj := ⟨{ scheme := u!"file", host := some (.str []), path := .list [[]] }, []⟩

example : (applyOps exEnv copyRoot (copying copyFile [.search, .pathname, .hash, .hostname, .pathname])).href = copyFile.href :=
  (C104_file (.inr (by decide)) exEnv_idna (o := copyFile) (p := copyRoot)
    (.new (s := u!"file://h/C:/x?q") (by decide) (by decide +kernel)) (.new (s := u!"file:///") (by decide) (by decide +kernel))
    rfl rfl (by unfold Spec.Deviant copyFile; simp) (by unfold Spec.Deviant copyRoot; simp) _ (by decide) (by decide)).2.2.2.2 (by decide)

/-- The conditions of C104 are needed: the protocol has to come first (a port that is the default of the old protocol is lost),
the target needs a host (or the credentials are lost), and the two URLs have to be of one kind. -/
theorem C104_false :
    (∃ o p, Reached exEnv o ∧ Reached exEnv p ∧ o.href = u!"http://h:443/" ∧ p.href = u!"https://x/" ∧
      (applyOps exEnv p (copying o [.username, .password, .hostname, .port, .pathname, .search, .hash, .protocol])).href = u!"http://h/") ∧
    (∃ o p, Reached exEnv o ∧ Reached exEnv p ∧ o.href = u!"foo://u@h/" ∧ p.href = u!"foo:///" ∧
      (applyOps exEnv p (copying o [.protocol, .username, .password, .hostname, .port, .pathname, .search, .hash])).href = u!"foo://h/") ∧
    (∃ o p, Reached exEnv o ∧ Reached exEnv p ∧ o.href = u!"foo://h/" ∧ p.href = u!"http://x/" ∧
      (applyOps exEnv p (copying o [.protocol, .username, .password, .hostname, .port, .pathname, .search, .hash])).href = u!"http://h/") := by
  refine ⟨⟨⟨{ scheme := u!"http", host := some (.str u!"h"), port := some 443, path := .list [[]] }, []⟩,
      ⟨{ scheme := u!"https", host := some (.str u!"x"), path := .list [[]] }, []⟩,
      .new (s := u!"http://h:443/") (by decide) (by decide +kernel), .new (s := u!"https://x/") (by decide) (by decide +kernel),
      by decide +kernel, by decide +kernel, by decide +kernel⟩,
    ⟨⟨{ scheme := u!"foo", username := u!"u", host := some (.str u!"h"), path := .list [[]] }, []⟩,
      ⟨{ scheme := u!"foo", host := some (.str []), path := .list [[]] }, []⟩,
      .new (s := u!"foo://u@h/") (by decide) (by decide +kernel), .new (s := u!"foo:///") (by decide) (by decide +kernel),
      by decide +kernel, by decide +kernel, by decide +kernel⟩,
    ⟨⟨{ scheme := u!"foo", host := some (.str u!"h"), path := .list [[]] }, []⟩,
      ⟨{ scheme := u!"http", host := some (.str u!"x"), path := .list [[]] }, []⟩,
      .new (s := u!"foo://h/") (by decide) (by decide +kernel), .new (s := u!"http://x/") (by decide) (by decide +kernel),
      by decide +kernel, by decide +kernel, by decide +kernel⟩⟩

end Urlstd.Props
