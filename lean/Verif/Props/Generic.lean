/-
C85: a generic URI parser and the attributes agree about `href`.
-/
import Verif.Lemmas.Generic
import Verif.Props.History

namespace Urlstd.Props

open Spec.Rfc

theorem reached_wf {env : Env} (hi : IdnaOK env) {o : URLObj} (h : Reached env o) : WF false (HostWF env.quiet) o.url :=
  (h.objOK (hostSpec_wf hi.quiet)).url

/-- C85. The regular expression of RFC 3986 splits `href` into the parts the object consists of: the scheme; an authority if
and only if there is a host, made of username, password, hostname and port; the pathname, behind "/." if it begins with two
slashes and there is no host; query and fragment. -/
theorem C85_split (env : Env) (hi : IdnaOK env) (o : URLObj) (h : Reached env o) :
    (split o.href).scheme = some o.url.scheme ∧ o.protocol = o.url.scheme ++ u!":" ∧
    (split o.href).authority.map Authority.read = o.url.host.map (fun _ =>
      { user := if o.username = [] ∧ o.password = [] then none else some o.username
        password := if o.password = [] then none else some o.password
        host := o.hostname
        port := if o.port = [] then none else some o.port }) ∧
    (split o.href).path = (if o.url.host = none ∧ u!"//" <+: o.pathname then u!"/." else []) ++ o.pathname ∧
    (split o.href).query = o.url.query ∧ (split o.href).fragment = o.url.fragment := by
  have hw := reached_wf hi h
  have e : split o.href = _ := split_serialize hw
  rw [e]
  refine ⟨rfl, rfl, ?_, ?_, rfl, rfl⟩
  · cases hh : o.url.host with
    | none => rfl
    | some host =>
      show some (Authority.read (authText o.url host)) = some _
      rw [authority_read hw hh]
      have hp : o.url.port.map natDec = if o.port = [] then none else some o.port := by
        unfold URLObj.port
        cases o.url.port with
        | none => rfl
        | some p => rw [if_neg (natDec_ne_nil p)]; rfl
      have hn : o.hostname = hostSerialize host := by
        unfold URLObj.hostname Rec.serializeHost
        rw [hh]
      rw [hp, hn]
      rfl
  · show writtenPath o.url = _
    unfold writtenPath URLObj.pathname
    congr 1
    have : o.url.needsDot = true ↔ o.url.host = none ∧ u!"//" <+: serializePath o.url.path := by
      have hpw := hw.path
      unfold PathWF at hpw
      unfold Rec.needsDot
      rw [Bool.and_eq_true, Option.isNone_iff_eq_none]
      refine and_congr_right fun hnull => ?_
      split at hpw
      · rename_i p hp
        have h47 : ∀ s ∈ p, 47 ∉ s := by
          intro s hs hc
          have := ((hpw.1.segs s hs).chars _ hc).2
          rw [isPathSep_slash] at this
          cases this
        rw [hp]
        match p, h47 with
        | [], _ => simp [serializePath]
        | [s], h47 =>
          simp only [serializePath, List.flatMap_cons, List.flatMap_nil, List.append_nil]
          constructor
          · intro h; cases h
          · rintro ⟨t, ht⟩
            simp only [List.cons_append, List.nil_append, List.cons.injEq, true_and] at ht
            exact absurd (ht ▸ List.mem_cons_self) (h47 s (by simp))
        | s :: s' :: r, h47 =>
          simp only [serializePath, List.flatMap_cons]
          cases s with
          | nil => simp
          | cons c cs =>
            have : c ≠ 47 := fun hc => h47 (c :: cs) (by simp) (by simp [hc])
            simp [Ne.symm this]
      · rename_i s hs
        rw [hs]
        constructor
        · intro h; cases h
        · rintro ⟨t, ht⟩
          exact absurd (show s.head? = some 47 by rw [show s = _ from ht.symm]; rfl) hpw.1.head
    by_cases hd : o.url.needsDot = true
    · rw [if_pos hd, if_pos (this.1 hd)]
    · rw [if_neg hd, if_neg fun hc => hd (this.2 hc)]

/-- C85. The authority has at most one "@", so it does not matter whether a parser looks for the first or for the last. -/
theorem C85_at (env : Env) (hi : IdnaOK env) (o : URLObj) (h : Reached env o) (a : Str)
    (ha : (split o.href).authority = some a) : a.count c!"@" ≤ 1 := by
  have hw := reached_wf hi h
  have e : split o.href = _ := split_serialize hw
  rw [e] at ha
  cases hh : o.url.host with
  | none => rw [hh] at ha; cases ha
  | some host =>
    rw [hh] at ha
    cases ha
    exact authText_at hw hh

/-- C85. The path in `href` has no dot segments but the one that may be written in front: taking dot segments away as RFC 3986
does gives `pathname`. -/
theorem C85_dots (env : Env) (hi : IdnaOK env) (o : URLObj) (h : Reached env o) (p : List Str)
    (hp : o.url.path = .list p) : removeDotSegments (split o.href).path = o.pathname := by
  have hw := reached_wf hi h
  have e : split o.href = _ := split_serialize hw
  rw [e]
  exact writtenPath_dots hw hp

theorem pathNonEmpty_iff (p : Path) : p.nonEmpty = true ↔ serializePath p ≠ [] := by
  cases p with
  | «opaque» s => simp [Path.nonEmpty, serializePath]
  | list l => cases l <;> simp [Path.nonEmpty, serializePath]

theorem written_opaque {u : Rec} {s : Str} (hp : u.path = .opaque s) : writtenPath u = s := by
  unfold writtenPath Rec.needsDot
  rw [hp]
  simp [serializePath]

theorem written_mixed {env : Env} {u v : Rec} (hu : WF false (HostWF env) u) {p : List Str} (hp : u.path = .list p)
    (hv : WF false (HostWF env) v) {s : Str} (hs : v.path = .opaque s) (hn : u.host = none ↔ v.host = none) :
    writtenPath v ≠ writtenPath u := by
  have h1 := hu.path
  have h2 := hv.path
  unfold PathWF at h1 h2
  rw [hp] at h1
  rw [hs] at h2
  dsimp only at h1 h2
  rw [written_opaque hs]
  intro he
  refine h2.1.head ?_
  have hne := h1.2.2 (hn.2 h2.2)
  rw [he]
  unfold writtenPath
  rw [hp]
  cases p with
  | nil => exact absurd rfl hne
  | cons x xs => split <;> rfl

/-- C85. `href` determines all other attributes: two URL objects, whatever was done to them, that have the same `href` have the
same scheme, username, password, host, hostname, port, pathname, search, hash, origin and search parameters. -/
theorem C85_href_determines (env : Env) (hi : IdnaOK env) (o o' : URLObj) (h : Reached env o) (h' : Reached env o')
    (he : o.href = o'.href) :
    o.protocol = o'.protocol ∧ o.username = o'.username ∧ o.password = o'.password ∧ o.host = o'.host ∧
      o.hostname = o'.hostname ∧ o.port = o'.port ∧ o.pathname = o'.pathname ∧ o.search = o'.search ∧ o.hash = o'.hash ∧
      o.params = o'.params ∧ o.origin env = o'.origin env := by
  have hw := reached_wf hi h
  have hw' := reached_wf hi h'
  have e : split o.href = _ := split_serialize hw
  have e' : split o'.href = _ := split_serialize hw'
  rw [he, e'] at e
  simp only [Split.mk.injEq, Option.some.injEq] at e
  obtain ⟨h1, h2, h3, h4, h5⟩ := e
  have hs := C85_split env hi o h
  have hs' := C85_split env hi o' h'
  rw [he] at hs
  have hauth : o.username = o'.username ∧ o.password = o'.password ∧ o.hostname = o'.hostname ∧ o.url.port = o'.url.port ∧
      (o.url.host = none ↔ o'.url.host = none) := by
    cases hh : o.url.host with
    | none =>
      rw [hh] at h2
      have hh' : o'.url.host = none := by
        cases hc : o'.url.host with
        | none => rfl
        | some x => rw [hc] at h2; cases h2
      have b := hw.auth.loose (.inl hh)
      have b' := hw'.auth.loose (.inl hh')
      refine ⟨b.1.trans b'.1.symm, b.2.1.trans b'.2.1.symm, ?_, (hw.auth.null hh).trans (hw'.auth.null hh').symm, by simp [hh']⟩
      unfold URLObj.hostname Rec.serializeHost
      rw [hh, hh']
    | some host =>
      cases hh' : o'.url.host with
      | none => rw [hh, hh'] at h2; cases h2
      | some host' =>
        rw [hh, hh'] at h2
        have ha : authText o'.url host' = authText o.url host := Option.some.inj h2
        have r := authority_read hw hh
        rw [← ha, authority_read hw' hh'] at r
        simp only [Authority.mk.injEq] at r
        obtain ⟨r1, r2, r3, r4⟩ := r
        have hpw : o.password = o'.password := by
          unfold URLObj.password
          split at r2 <;> split at r2
          · next a b => rw [a, b]
          · cases r2
          · cases r2
          · exact (Option.some.inj r2).symm
        have hus : o.username = o'.username := by
          unfold URLObj.username
          split at r1 <;> split at r1
          · next a b => rw [a.1, b.1]
          · cases r1
          · cases r1
          · exact (Option.some.inj r1).symm
        refine ⟨hus, hpw, ?_, ?_, by simp⟩
        · unfold URLObj.hostname Rec.serializeHost
          rw [hh, hh']
          exact r3.symm
        · cases hp : o.url.port <;> cases hp' : o'.url.port <;> rw [hp, hp'] at r4
          · cases r4
          · cases r4
          · exact congrArg some (natDec_injective (Option.some.inj r4)).symm
  obtain ⟨a1, a2, a3, a4, a5⟩ := hauth
  have hpath : o.pathname = o'.pathname := by
    show serializePath o.url.path = serializePath o'.url.path
    cases hp : o.url.path with
    | list p =>
      cases hp' : o'.url.path with
      | list p' => rw [← hp, ← hp', ← writtenPath_dots hw hp, ← writtenPath_dots hw' hp', h3]
      | «opaque» s => exact absurd h3 (written_mixed hw hp hw' hp' a5)
    | «opaque» s =>
      cases hp' : o'.url.path with
      | list p' => exact absurd h3.symm (written_mixed hw' hp' hw hp a5.symm)
      | «opaque» s' =>
        rw [written_opaque hp, written_opaque hp'] at h3
        exact h3.symm
  refine ⟨by unfold URLObj.protocol; rw [h1], a1, a2, ?_, a3, by unfold URLObj.port; rw [a4], hpath, ?_, ?_, ?_, ?_⟩
  · unfold URLObj.hostname Rec.serializeHost at a3
    unfold URLObj.host Rec.serializePort
    rw [a4]
    cases hh : o.url.host with
    | none => rw [a5.1 hh]
    | some host =>
      cases hh' : o'.url.host with
      | none => rw [a5.2 hh'] at hh; cases hh
      | some host' =>
        rw [hh, hh'] at a3
        dsimp only at a3 ⊢
        rw [a3]
  · unfold URLObj.search; rw [h4]
  · unfold URLObj.hash; rw [h5]
  · rw [(h.objOK (hostSpec_wf hi.quiet)).params, (h'.objOK (hostSpec_wf hi.quiet)).params, h4]
  · have hor : (o.url.origin env.quiet).map (Option.map Origin.toStr) = (o'.url.origin env.quiet).map (Option.map Origin.toStr) := by
      unfold Rec.origin
      rw [← h1]
      by_cases hb : o'.url.scheme = u!"blob"
      · rw [if_pos hb, if_pos hb]
        have hne : o.url.path.nonEmpty = o'.url.path.nonEmpty := by
          rw [Bool.eq_iff_iff, pathNonEmpty_iff, pathNonEmpty_iff]
          show o.pathname ≠ [] ↔ o'.pathname ≠ []
          rw [hpath]
        rw [hne, show serializePath o.url.path = serializePath o'.url.path from hpath]
      · rw [if_neg hb, if_neg hb]
        unfold Rec.originNonBlob
        rw [← h1]
        split
        · show Except.ok (some (Origin.toStr _)) = Except.ok (some (Origin.toStr _))
          unfold URLObj.hostname Rec.serializeHost at a3
          unfold Origin.toStr
          dsimp only
          rw [a4]
          cases hh : o.url.host with
          | none => rw [a5.1 hh]
          | some x =>
            cases hh' : o'.url.host with
            | none => rw [a5.2 hh'] at hh; cases hh
            | some x' =>
              rw [hh, hh'] at a3
              dsimp only at a3 ⊢
              rw [a3]
        · rfl
    have hget : ∀ x : URLObj, x.origin env = ((x.url.origin env.quiet).map (Option.map Origin.toStr)).map (·.getD u!"null") := by
      intro x
      unfold URLObj.origin
      rcases x.url.origin env.quiet with e | _ | y <;> rfl
    rw [hget, hget, hor]

/-! "http://u:p@h:8080/a?b#c" -/

def exGeneric : URLObj := ⟨{ scheme := u!"http", username := u!"u%40", password := u!"p", host := some (.ipv6 [0, 0, 0, 0, 0, 0, 0, 1]), port := some 8080, path := .list [u!"a"], query := some u!"b?", fragment := some u!"c#" }, [(u!"b?", [])]⟩

theorem exGeneric_reached : Reached exEnv exGeneric :=
  .new (s := u!"http://u@:p@[::1]:8080/a?b?#c#") (by decide) (by decide +kernel)

example : exGeneric.href = u!"http://u%40:p@[::1]:8080/a?b?#c#" := by decide +kernel
example : split exGeneric.href =
    { scheme := some u!"http", authority := some u!"u%40:p@[::1]:8080", path := u!"/a", query := some u!"b?",
      fragment := some u!"c#" } := by decide +kernel
example : Authority.read u!"u%40:p@[::1]:8080" =
    { user := some u!"u%40", password := some u!"p", host := u!"[::1]", port := some u!"8080" } := by decide +kernel
example : (split exGeneric.href).scheme = some u!"http" := (C85_split _ exEnv_idna _ exGeneric_reached).1
example : (u!"u%40:p@[::1]:8080").count c!"@" ≤ 1 :=
  C85_at _ exEnv_idna _ exGeneric_reached _ (by decide +kernel)

/-- "a:/.//b" -/
def exDotted : URLObj := ⟨{ scheme := u!"a", path := .list [u!"", u!"b"] }, []⟩

theorem exDotted_reached : Reached exEnv exDotted := .new (s := u!"a:/.//b") (by decide) (by decide +kernel)

example : exDotted.href = u!"a:/.//b" := by decide +kernel
example : (split exDotted.href).path = u!"/.//b" := by decide +kernel
example : removeDotSegments (split exDotted.href).path = u!"//b" := C85_dots _ exEnv_idna _ exDotted_reached _ rfl

/-- two different records with the same `href`: the first host is too large a number (C09) -/
def exBig : URLObj := ⟨{ scheme := u!"http", host := some (.ipv4 (2 ^ 32 + 256)), path := .list [[]] }, []⟩
def exSmall : URLObj := ⟨{ scheme := u!"http", host := some (.ipv4 256), path := .list [[]] }, []⟩

theorem exBig_reached : Reached exEnv exBig := .new (s := u!"http://256.256") (by decide) (by decide +kernel)
theorem exSmall_reached : Reached exEnv exSmall := .new (s := u!"http://0.256") (by decide) (by decide +kernel)

example : exBig.href = exSmall.href ∧ exBig ≠ exSmall := by decide +kernel
example : exBig.hostname = exSmall.hostname :=
  (C85_href_determines _ exEnv_idna _ _ exBig_reached exSmall_reached (by decide +kernel)).2.2.2.2.1

end Urlstd.Props
