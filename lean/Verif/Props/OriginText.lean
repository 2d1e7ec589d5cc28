/-
Property C103: the text of an origin stands for the origin.
-/
import Verif.Lemmas.OriginText
import Verif.Props.Depend

namespace Urlstd.Props

open Spec (IsStr RefersTo dropTabs stripC0 Slash GoodBase)

variable {env : Env}

/-- the hosts that are written alike: equal ones, and IPv4 addresses with the same last 32 bits -/
def SameText (x y : Option Host) : Prop :=
  x = y ∨ ∃ m n, x = some (.ipv4 m) ∧ y = some (.ipv4 n) ∧ m % 2 ^ 32 = n % 2 ^ 32

theorem sameText_iff {x y : Option Host} : x.map Host.canon = y.map Host.canon ↔ SameText x y := by
  unfold SameText
  cases x with
  | none => cases y <;> simp
  | some x =>
    cases y with
    | none => simp
    | some y =>
      cases x <;> cases y <;> simp [Host.canon]
      rintro rfl
      rfl

theorem origin_getter {o : URLObj} {t : Str} : o.origin env = .ok t ↔
    (o.url.origin env.quiet = .ok none ∧ t = u!"null") ∨ ∃ a, o.url.origin env.quiet = .ok (some a) ∧ t = a.toStr := by
  unfold URLObj.origin
  rcases o.url.origin env.quiet with e | (_ | x) <;> simp [eq_comm]

theorem toStr_ne_null {a : Origin} (h : a.scheme ∈ Spec.tupleOriginSchemes) : a.toStr ≠ u!"null" := by
  unfold Origin.toStr
  intro e
  have : ∀ s ∈ Spec.tupleOriginSchemes, s.head? ≠ some c!"n" ∧ s ≠ [] := by decide
  obtain ⟨h1, h2⟩ := this _ h
  cases hs : a.scheme with
  | nil => exact h2 hs
  | cons c t =>
    rw [hs] at e h1
    simp only [List.cons_append] at e
    injection e with e _
    exact h1 (by rw [e]; rfl)

/-- C103. `origin` is "null" exactly if the origin is opaque. -/
theorem C103_null (env : Env) (hi : IdnaOK env) (o : URLObj) (h : Reached env o) :
    o.origin env = .ok u!"null" ↔ o.url.origin env.quiet = .ok none := by
  rw [origin_getter]
  constructor
  · rintro (⟨h1, -⟩ | ⟨a, h1, h2⟩)
    · exact h1
    · exact absurd h2.symm (toStr_ne_null (reached_origin hi h h1).scheme)
  · exact fun h1 => .inl ⟨h1, rfl⟩

/-- the origin of "data:x" is opaque -/
example : ∃ o, Reached exEnv o ∧ o.origin exEnv = .ok u!"null" ∧ o.url.origin exEnv.quiet = .ok none := by
  refine ⟨⟨{ scheme := u!"data", path := .opaque u!"x" }, []⟩, .new (s := u!"data:x") (by decide) ?_, by decide +kernel, by decide +kernel⟩
  decide +kernel

/-- C103. When two URLs whose origins are not opaque show the same text. -/
theorem C103_same (env : Env) (he : EnvOK env) (hi : IdnaOK env) (o p : URLObj) (ho : Reached env o) (hp : Reached env p) (a b : Origin)
    (ha : o.url.origin env.quiet = .ok (some a)) (hb : p.url.origin env.quiet = .ok (some b)) :
    o.origin env = p.origin env ↔ a.scheme = b.scheme ∧ SameText a.host b.host ∧ a.port = b.port := by
  have e1 : o.origin env = .ok a.toStr := origin_getter.2 (.inr ⟨a, ha, rfl⟩)
  have e2 : p.origin env = .ok b.toStr := origin_getter.2 (.inr ⟨b, hb, rfl⟩)
  rw [e1, e2, Except.ok.injEq, originText_inj he.quiet hi.quiet (reached_origin hi ho ha) (reached_origin hi hp hb), sameText_iff]

/-- C103 (partial: no IPv4 address of more than 32 bits, see C18). Two URLs whose origins are not opaque show the same text exactly if they
have the same origin. -/
theorem C103_same_partial (env : Env) (he : EnvOK env) (hi : IdnaOK env) (o p : URLObj) (ho : Reached env o) (hp : Reached env p) (a b : Origin)
    (ha : o.url.origin env.quiet = .ok (some a)) (hb : p.url.origin env.quiet = .ok (some b))
    (na : ∀ n, a.host = some (.ipv4 n) → n < 2 ^ 32) (nb : ∀ n, b.host = some (.ipv4 n) → n < 2 ^ 32) :
    o.origin env = p.origin env ↔ a.isSameOrigin b = true := by
  rw [C103_same env he hi o p ho hp a b ha hb, C55_same_origin]
  constructor
  · rintro ⟨h1, h2 | ⟨m, n, h2, h3, h4⟩, h5⟩
    · exact ⟨h1, h2, h5⟩
    · rw [Nat.mod_eq_of_lt (na m h2), Nat.mod_eq_of_lt (nb n h3)] at h4
      exact ⟨h1, by rw [h2, h3, h4], h5⟩
  · rintro ⟨h1, h2, h5⟩
    exact ⟨h1, .inl h2, h5⟩

theorem exOrigin {s : Str} (hs : IsStr s) {o : URLObj} (h : URLObj.new exEnv s = .ok o) : Reached exEnv o := .new hs h

/-- "http://h/x" and "blob:http://H:80/y" have the same origin -/
example : URLObj.origin exEnv ⟨{ scheme := u!"http", host := some (.str u!"h"), path := .list [u!"x"] }, []⟩ =
    URLObj.origin exEnv ⟨{ scheme := u!"blob", path := .opaque u!"http://H:80/y" }, []⟩ :=
  (C103_same_partial exEnv (.inr (by decide)) exEnv_idna _ _
    (exOrigin (s := u!"http://h/x") (by decide) (by decide +kernel)) (exOrigin (s := u!"blob:http://H:80/y") (by decide) (by decide +kernel))
    ⟨u!"http", some (.str u!"h"), none, none⟩ ⟨u!"http", some (.str u!"h"), none, none⟩ (by decide +kernel) (by decide +kernel)
    (by intro n hn; cases hn) (by intro n hn; cases hn)).2 (by decide)

/-- C103 is false for longer addresses: "http://256.256" and "http://0.0.1.0" are both "http://0.0.1.0" but do not have the same origin. -/
theorem C103_false : ∃ (env : Env) (o p : URLObj) (a b : Origin), EnvOK env ∧ IdnaOK env ∧ Reached env o ∧ Reached env p ∧
    o.url.origin env.quiet = .ok (some a) ∧ p.url.origin env.quiet = .ok (some b) ∧ o.origin env = p.origin env ∧ a.isSameOrigin b = false := by
  refine ⟨exEnv, ⟨{ scheme := u!"http", host := some (.ipv4 (256 * 2 ^ 24 + 256)), path := .list [[]] }, []⟩,
    ⟨{ scheme := u!"http", host := some (.ipv4 256), path := .list [[]] }, []⟩, ⟨u!"http", some (.ipv4 (256 * 2 ^ 24 + 256)), none, none⟩,
    ⟨u!"http", some (.ipv4 256), none, none⟩, .inr (by decide), exEnv_idna, exOrigin (s := u!"http://256.256") (by decide) ?_,
    exOrigin (s := u!"http://0.0.1.0") (by decide) ?_, ?_, ?_, ?_, ?_⟩ <;> decide +kernel

/-- C103. The text of an origin that is not opaque is a URL: the one with the path "/" and the same origin text. -/
theorem C103_url (env : Env) (he : EnvOK env) (hi : IdnaOK env) (o : URLObj) (h : Reached env o) (t : Str) (ht : o.origin env = .ok t)
    (hn : t ≠ u!"null") :
    ∃ p, URLObj.new env t = .ok p ∧ p.href = t ++ u!"/" ∧ p.origin env = .ok t ∧ p.pathname = u!"/" ∧
      p.username = [] ∧ p.password = [] ∧ p.search = [] ∧ p.hash = [] := by
  rcases origin_getter.1 ht with ⟨-, h1⟩ | ⟨a, ha, rfl⟩
  · exact absurd h1 hn
  have hok := reached_origin hi h ha
  have hp := originText_parse he.quiet hi.quiet hok
  refine ⟨⟨(originRec a).canon, spOfQuery (originRec a).canon.query⟩, ?_, ?_, ?_, rfl, rfl, rfl, rfl, rfl⟩
  · unfold URLObj.new
    rw [show (parseUrl env.quiet a.toStr (UrlBase.arg .none)).res = _ from hp]
  · show (originRec a).canon.serialize = _
    rw [serialize_canon, originRec_text a hok.hosted]
  · refine origin_getter.2 (.inr ⟨_, C56_tuple _ _ hok.scheme, ?_⟩)
    unfold Origin.toStr
    show _ = _ ++ u!"://" ++ (match a.host.map Host.canon with | none => [] | some h => hostSerialize h) ++ _
    cases hh : a.host with
    | none => exact absurd hh hok.hosted
    | some x =>
      simp only [Option.map_some, hostSerialize_canon]
      rfl

/-- "http://h:8080" is a URL with the origin "http://h:8080" -/
example : ∃ p, URLObj.new exEnv u!"http://h:8080" = .ok p ∧ p.href = u!"http://h:8080/" ∧ p.origin exEnv = .ok u!"http://h:8080" := by
  obtain ⟨p, h1, h2, h3, -⟩ := C103_url exEnv (.inr (by decide)) exEnv_idna _
    (exOrigin (s := u!"blob:http://H:8080/y") (o := ⟨{ scheme := u!"blob", path := .opaque u!"http://H:8080/y" }, []⟩) (by decide) (by decide +kernel))
    u!"http://h:8080" (by decide +kernel) (by decide)
  exact ⟨p, h1, h2, h3⟩

/-- C103. For a reference that begins with a slash (as a reference of this URL, so behind the same scheme too) and for an absolute URL, a URL
without credentials can be replaced by its origin as the base. -/
theorem C103_base (env : Env) (he : EnvOK env) (hi : IdnaOK env) (o : URLObj) (h : Reached env o) (t : Str) (ht : o.origin env = .ok t)
    (hsc : o.url.scheme ∈ Spec.tupleOriginSchemes) (hu : o.username = []) (hpw : o.password = [])
    (hn : ∀ n, o.url.host = some (.ipv4 n) → n < 2 ^ 32) (s : Str) (hs : IsStr s)
    (hr : ∀ r, RefersTo o.url (dropTabs (stripC0 s)) r → ∃ c, r.head? = some c ∧ (c = c!"/" ∨ c = c!"\\")) :
    URLObj.new env s (.str t) = URLObj.new env s (.url o) := by
  have hw := reached_wf hi h
  have ha := C56_tuple env.quiet o.url hsc
  obtain ⟨hsp, hf⟩ := tuple_special hsc
  rcases origin_getter.1 ht with ⟨h1, -⟩ | ⟨a, h1, rfl⟩
  · rw [ha] at h1; cases h1
  rw [ha] at h1
  injection h1 with h1
  injection h1 with h1
  have hok := reached_origin hi h ha
  rw [h1] at hok ha
  have hp := originText_parse he.quiet hi.quiet hok
  have hcanon : (originRec a).canon.host = o.url.host := by
    rw [← h1]
    show o.url.host.map Host.canon = o.url.host
    cases hh : o.url.host with
    | none => rfl
    | some x =>
      cases x with
      | ipv4 n =>
        show some (Host.ipv4 (n % 2 ^ 32)) = _
        rw [Nat.mod_eq_of_lt (hn n hh)]
      | _ => rfl
  have hlist : ∃ p, o.url.path = .list p := by
    refine list_of_notOpaque ?_
    unfold Spec.isOpaque
    split
    · next hq =>
      have := hw.path
      unfold PathWF at this
      rw [hq] at this
      exact absurd this.2 (hw.auth.special hsp).1
    · rfl
  obtain ⟨p, hpath⟩ := hlist
  have hspec : Spec.isSpecial o.url.scheme = true := (isSpecial_rec o.url).trans hsp
  have key : (parseUrl env.quiet s (.record o.url)).res = (parseUrl env.quiet s (.record (originRec a).canon)).res := by
    refine C91_common env.quiet s o.url (originRec a).canon hs (by rintro b ⟨⟩ _; exact ⟨p, hpath⟩) (by rintro b ⟨⟩ _; exact ⟨[[]], rfl⟩)
      (by rw [← h1]; rfl) (by unfold Spec.isOpaque; rw [hpath]; rfl) fun r hrr => ?_
    obtain ⟨c, hc, hcs⟩ := hr r hrr
    have hsl : Slash (Spec.isSpecial o.url.scheme) c := by
      rw [hspec]
      exact hcs.imp id fun h => ⟨rfl, h⟩
    refine ⟨fun _ _ => ⟨fun _ => ⟨?_, ?_, ?_, ?_, ?_⟩, fun e => absurd e hf⟩, fun hns => absurd hsl (hns c hc), fun hnp => ?_, fun hnq => ?_⟩
    · rw [← h1]; rfl
    · exact hu
    · exact hpw
    · exact hcanon.symm
    · rw [← h1]; rfl
    · rcases hnp c hc with e | e <;> subst e <;> rcases hcs with e | e <;> cases e
    · have e := hnq c hc
      subst e
      rcases hcs with e | e <;> cases e
  unfold URLObj.new
  have e2 : (parseUrl env.quiet s (UrlBase.arg (.str a.toStr))).res = (parseUrl env.quiet s (.record (originRec a).canon)).res := by
    show (parseUrl env.quiet s (.str a.toStr)).res = _
    have hp' : (basicParse env.quiet a.toStr none .utf8).toExcept = .ok (originRec a).canon := hp
    unfold parseUrl
    dsimp only
    rw [hp']
  rw [e2, ← key]
  rfl

/-- "/x" against "http://ex.com/a/b?c" and against "http://ex.com" -/
example : URLObj.new exEnv u!"/x" (.str u!"http://ex.com") =
    URLObj.new exEnv u!"/x" (.url ⟨{ scheme := u!"http", host := some (.str u!"ex.com"), path := .list [u!"a", u!"b"], query := some u!"c" }, [(u!"c", [])]⟩) := by
  refine C103_base exEnv (.inr (by decide)) exEnv_idna _ (exOrigin (s := u!"http://ex.com/a/b?c") (by decide) (by decide +kernel)) _ (by decide +kernel)
    (by decide) rfl rfl (by intro n hn; cases hn) _ (by decide) fun r hr => ?_
  have hr : r = u!"/x" := refersTo_self (by decide) hr
  subst hr
  exact ⟨_, rfl, .inl rfl⟩

end Urlstd.Props
