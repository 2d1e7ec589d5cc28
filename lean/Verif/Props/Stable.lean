/-
Property C80: what does not affect the origin of a URL.
-/
import Verif.Props.Origin
import Verif.Props.Setter
import Verif.Props.Input
import Verif.Props.Reference

set_option linter.unusedSimpArgs false

namespace Urlstd.Props

open Spec (AgreeExcept mayChange changesTail Stripped SameAuthority HasScheme TabOrNewline C0OrSpace Special)

/-- the operations on credentials, path, query, parameters and fragment -/
def keepsOrigin : Op → Bool
  | .username _ | .password _ | .pathname _ | .search _ | .hash _ | .spAppend _ _ | .spDelete _ _ | .spSet _ _ | .spSort => true
  | .protocol _ | .host _ | .hostname _ | .port _ | .href _ => false

/-- what begins with a slash is not a URL -/
theorem parse_slash_error (env : Env) (t : Str) : (parseUrl env (c!"/" :: t)).res = .error .urlParse := by
  show (basicParse env (c!"/" :: t)).toExcept = _
  rw [basicParse_toExcept, show c!"/" :: t = [c!"/"] ++ t from rfl, prepared_append (by decide) (by decide)]
  rfl

theorem blob_list_origin (env : Env) (u : Rec) (h : u.scheme = u!"blob") (l : List Str) (hl : u.path = .list l) :
    u.origin env = .ok none := by
  refine (C56_blob env u h _ rfl).2.2.1 .urlParse ?_ rfl
  rw [hl]
  cases l with
  | nil => exact parse_empty_error env.quiet
  | cons s l => exact parse_slash_error _ _

/-- the origin of a blob URL depends on its path only, and not on spaces at the end of it -/
theorem blob_origin_congr (env : Env) (u v : Rec) (hu : u.scheme = u!"blob") (hv : v.scheme = u!"blob")
    (h : Stripped u.path v.path) : v.origin env = u.origin env := by
  have key : (parseUrl env.quiet (serializePath v.path)).res = (parseUrl env.quiet (serializePath u.path)).res := by
    rcases h with h | ⟨s, w, h1, h2, h3⟩
    · rw [h]
    · rw [h1, h2]
      have := C32_surrounding_space_ignored env.quiet s [] w (by simp) (fun c hc => by
        have := h3 c hc
        unfold Spec.AsciiWhite at this
        unfold C0OrSpace
        omega) .none .utf8
      exact this.symm
  obtain ⟨a1, a2, a3, a4⟩ := C56_blob env u hu _ rfl
  obtain ⟨b1, b2, b3, b4⟩ := C56_blob env v hv _ key
  cases hr : (parseUrl env.quiet (serializePath u.path)).res with
  | ok p =>
    by_cases hp : p.scheme = u!"http" ∨ p.scheme = u!"https"
    · rw [a1 p hr hp, b1 p hr hp]
    · rw [not_or] at hp
      rw [a2 p hr hp.1 hp.2, b2 p hr hp.1 hp.2]
  | error e =>
    cases he : e.isURLParseError with
    | true => rw [a3 e hr he, b3 e hr he]
    | false => rw [a4 e hr he, b4 e hr he]

/-- C80. Assignments to `username`, `password`, `pathname`, `search` and `hash` and changes of the search parameters do not
change the origin of a URL, blob URLs included. -/
theorem C80_operation (env env' : Env) (o : URLObj) (op : Op) (h : keepsOrigin op = true) :
    (applyOp env o op).2.url.origin env' = o.url.origin env' ∧ (applyOp env o op).2.origin env' = o.origin env' := by
  suffices hs : ∀ env', (applyOp env o op).2.url.origin env' = o.url.origin env' from
    ⟨hs env', by unfold URLObj.origin; rw [hs]⟩
  intro env'
  have ha := C42_own_component_only env o op
  have hsc : o.url.scheme = (applyOp env o op).2.url.scheme := ha .scheme (by cases op <;> simp [mayChange, keepsOrigin] at h ⊢)
  by_cases hb : o.url.scheme = u!"blob"
  · cases ht : changesTail op with
    | true => exact blob_origin_congr env' _ _ hb (hsc ▸ hb) (C42_path_only_stripped env o op ht).1
    | false =>
      by_cases hp : Spec.Comp.path ∈ mayChange op
      · obtain ⟨v, rfl⟩ : ∃ v, op = .pathname v := by
          cases op <;> simp [mayChange, changesTail, keepsOrigin] at h hp ht ⊢
        cases ho : o.url.path with
        | «opaque» s =>
          have : applyOp env o (.pathname v) = (.ok (), o) := by
            show setPathname env o v = _
            unfold setPathname
            rw [if_pos (by unfold Rec.hasOpaquePath; rw [ho])]
          rw [this]
        | list l =>
          rw [blob_list_origin env' _ hb l ho]
          have he := setPathname_eq env o v (by unfold Rec.hasOpaquePath; rw [ho])
          refine blob_list_origin env' _ (hsc ▸ hb) (pathnameSegs o.url (removeTabNewline v)) ?_
          show (setPathname env o v).2.url.path = _
          rw [he]
      · exact blob_origin_congr env' _ _ hb (hsc ▸ hb) (.inl (ha .path hp).symm)
  · have hh : o.url.host = (applyOp env o op).2.url.host := ha .host (by cases op <;> simp [mayChange, keepsOrigin] at h ⊢)
    have hp : o.url.port = (applyOp env o op).2.url.port := ha .port (by cases op <;> simp [mayChange, keepsOrigin] at h ⊢)
    unfold Rec.origin Rec.originNonBlob
    rw [← hsc, ← hh, ← hp, if_neg hb, if_neg hb]

/-- C80 for every history of such operations, exceptions on the way included. -/
theorem C80_history (env env' : Env) (o : URLObj) (ops : List Op) (h : ∀ op ∈ ops, keepsOrigin op = true) :
    (applyOps env o ops).url.origin env' = o.url.origin env' ∧ (applyOps env o ops).origin env' = o.origin env' := by
  induction ops generalizing o with
  | nil => exact ⟨rfl, rfl⟩
  | cons op ops ih =>
    obtain ⟨h1, h2⟩ := C80_operation env env' o op (h op List.mem_cons_self)
    obtain ⟨h3, h4⟩ := ih (applyOp env o op).2 fun x hx => h x (List.mem_cons_of_mem _ hx)
    exact ⟨h3.trans h1, h4.trans h2⟩

example : (applyOps exEnv exStart [.username u!"a@b:81", .pathname u!"//other/", .search u!"//x", .hash u!"@y"]).href =
      u!"http://a%40b%3A81@h//other/?//x#@y" ∧
    (applyOps exEnv exStart [.username u!"a@b:81", .pathname u!"//other/", .search u!"//x", .hash u!"@y"]).origin exEnv =
      .ok u!"http://h" := by
  refine ⟨by decide +kernel, ?_⟩
  rw [(C80_history exEnv exEnv exStart _ (by decide)).2]
  decide +kernel

-- a blob URL whose path loses its trailing space
example : (applyOp exEnv ⟨{ scheme := u!"blob", path := .opaque u!"http://h/ ", fragment := some u!"f" }, []⟩ (.hash [])).2.url.path =
      .opaque u!"http://h/" ∧
    (applyOp exEnv ⟨{ scheme := u!"blob", path := .opaque u!"http://h/ ", fragment := some u!"f" }, []⟩ (.hash [])).2.origin exEnv =
      .ok u!"http://h" := by decide +kernel

-- the other operations do change it
example : ∀ op ∈ [Op.protocol u!"https", .host u!"i", .hostname u!"i", .port u!"81", .href u!"http://i"],
    keepsOrigin op = false ∧ (applyOp exEnv exStart op).2.origin exEnv ≠ exStart.origin exEnv := by decide +kernel

/-- C80. A reference that consists of a path, a query or a fragment has the origin of the base it is resolved against. -/
theorem C80_reference (env env' : Env) (b : Rec) (r : Str) (e : Encoding)
    (hp : ∀ t, b.path ≠ .opaque t) (hnf : b.scheme ≠ u!"file") (hnb : b.scheme ≠ u!"blob") (hns : ¬ HasScheme r)
    (htab : ∀ c ∈ r, ¬ TabOrNewline c) (hhead : ∀ c, r.head? = some c → ¬ C0OrSpace c)
    (h1 : ∀ t, r ≠ u!"//" ++ t) (h2 : Special b.scheme → ∀ t, r ≠ u!"/\\" ++ t) (h3 : Special b.scheme → ∀ t, r ≠ u!"\\" ++ t) :
    ∃ u, (parseUrl env r (.record b) e).res = .ok u ∧ u.origin env' = b.origin env' := by
  obtain ⟨u, hu, ha, _, _, hh, hpt⟩ := C40_path_reference_keeps_authority env b r e hp hnf hns htab hhead h1 h2 h3
  refine ⟨u, hu, ?_⟩
  unfold Rec.origin Rec.originNonBlob
  rw [ha, hh, hpt, if_neg hnb, if_neg hnb]

example : ∃ u, (parseUrl exEnv u!"../@x:1//y" (.record exRecord)).res = .ok u ∧ u.origin exEnv = exRecord.origin exEnv :=
  C80_reference exEnv exEnv exRecord u!"../@x:1//y" .utf8 (by intro t h; cases h) (by decide) (by decide)
    (by
      rintro ⟨sc, rest, ⟨c, cs, rfl, hc, -⟩, h⟩
      injection h with h _
      subst h
      exact absurd hc (by decide)) (by decide) (by decide)
    (by intro t h; cases h) (by intro _ t h; cases h) (by intro _ t h; cases h)

end Urlstd.Props
