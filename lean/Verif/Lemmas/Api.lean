/-
The operations on `URL` objects perform the standard's setters and methods.
-/
import Verif.Lemmas.Machine5
import Verif.Lemmas.OwnValue
import Verif.Lemmas.Params
import Verif.Lemmas.QueryList
import Verif.Props.Codec
import Verif.Props.Params
import Verif.Spec.Api

set_option linter.unusedSimpArgs false
set_option linter.unusedVariables false

namespace Urlstd

open Spec (IsStr IsScalarStr Outcome Performs Runs Modifies)

variable {env : Env}

/-! ### Runs of the parser with a state override -/

theorem removeLeading_eq (c : Nat) (s : Str) : Spec.removeLeading c s = dropLead c s := by
  cases s with
  | nil => rfl
  | cons x xs => rfl

theorem scalar_removeTab {v : Str} (h : IsScalarStr v) : IsScalarStr (removeTabNewline v) :=
  h.mono fun c hc => (List.mem_filter.1 hc).1

theorem dropLead_subset (c : Nat) (v : Str) : ∀ x ∈ dropLead c v, x ∈ v := by
  intro x hx
  unfold dropLead at hx
  split at hx
  · split at hx
    · exact List.mem_cons_of_mem _ hx
    · exact hx
  · exact hx

theorem dropLead_length (c : Nat) (v : Str) : (dropLead c v).length ≤ v.length := by
  unfold dropLead
  split
  · split
    · simp
    · exact Nat.le_refl _
  · exact Nat.le_refl _

theorem simOK_setter {v : Str} (hs : IsScalarStr v) (hd : env.maxStrDigits = 0 ∨ v.length ≤ env.maxStrDigits) :
    SimOK env.quiet .utf8 none (removeTabNewline v) := by
  refine ⟨scalar_removeTab hs, trivial, trivial, ?_, by simp⟩
  rcases hd with h | h
  · exact .inl h
  · exact .inr (Nat.le_trans (List.length_filter_le _ _) h)

/-- how an operation of the code ends -/
def raised : Except Err Unit → Bool
  | .ok _ => false
  | .error _ => true

/-- what an operation of the code does, in the terms of the standard -/
def Done (P : Bool → URLObj → Prop) (r : SetOut) : Prop := ∀ failed o', P failed o' ↔ (raised r.1 = failed ∧ r.2 = o')

/-- the standard's parser ends as the code's -/
def Simulates (env : Env) (v : Str) (u : Rec) (ov : PState) : Prop :=
  Spec.Halts (machine env.quiet .utf8 none (some ov)) (removeTabNewline v) (.start ov.std u)
    (E env.quiet .utf8 none (some ov) ov (removeTabNewline v) u)

theorem outcome_url (x : Except Err Unit × Rec) : (outcome x).url = x.2 := by
  rcases x with ⟨r, u⟩; cases r <;> rfl

theorem outcome_failed (x : Except Err Unit × Rec) : (outcome x).failed = raised x.1 := by
  rcases x with ⟨r, u⟩; cases r <;> rfl

theorem runs_setter {o : URLObj} {u : Rec} {v : Str} {ov : PState} (h : Simulates env v u ov) :
    Done (Runs (hostOf env.quiet) o v u ov.std) (setterParse env o u v ov) := by
  intro failed o'
  rw [setterParse_eq]
  have hm : Modifies (hostOf env.quiet) v u ov.std (E env.quiet .utf8 none (some ov) ov (removeTabNewline v) u) := by
    unfold Spec.Modifies
    rw [dropTabs_eq]
    exact h
  constructor
  · rintro ⟨r, hr, rfl, rfl⟩
    have := hr.unique hm
    subst this
    unfold E
    rw [outcome_url, outcome_failed]
    exact ⟨rfl, rfl⟩
  · rintro ⟨rfl, rfl⟩
    refine ⟨_, hm, ?_, ?_⟩
    · unfold E; rw [outcome_failed]
    · unfold E; rw [outcome_url]

theorem done_const {o₁ : URLObj} {P : Bool → URLObj → Prop} (h : ∀ f o', P f o' ↔ (f = false ∧ o' = o₁)) : Done P (.ok (), o₁) := by
  intro f o'
  rw [h]
  constructor
  · rintro ⟨rfl, rfl⟩; exact ⟨rfl, rfl⟩
  · rintro ⟨rfl, rfl⟩; exact ⟨rfl, rfl⟩

theorem done_ite {c : Bool} {P Q : Bool → URLObj → Prop} {x y : SetOut} (hx : c = true → Done P x) (hy : c = false → Done Q y) :
    Done (fun f o' => if c = true then P f o' else Q f o') (if c = true then x else y) := by
  cases c with
  | true => exact hx rfl
  | false => exact hy rfl

theorem cannotHaveUPP_eq (u : Rec) : Spec.cannotHaveUPP u = u.cannotHaveUPP := by
  unfold Spec.cannotHaveUPP Rec.cannotHaveUPP Rec.hostNoneOrEmpty
  cases hh : u.host with
  | none => simp
  | some hst =>
    cases hst with
    | str x => cases x <;> simp
    | ipv4 x => simp
    | ipv6 x => simp

theorem isOpaque_rec (u : Rec) : Spec.isOpaque u = u.hasOpaquePath := by
  unfold Spec.isOpaque Rec.hasOpaquePath
  cases u.path <;> rfl

theorem list_of_not_opaque {u : Rec} (h : u.hasOpaquePath = false) : ∃ pp, u.path = .list pp := by
  unfold Rec.hasOpaquePath at h
  cases hp : u.path with
  | list pp => exact ⟨pp, rfl⟩
  | «opaque» t => rw [hp] at h; cases h

/-! ### Stripping -/

theorem dropWhile_congr_mem {p q : Nat → Bool} {l : List Nat} (h : ∀ c ∈ l, p c = q c) : l.dropWhile p = l.dropWhile q := by
  induction l with
  | nil => rfl
  | cons x xs ih =>
    have hx := h x (by simp)
    rw [List.dropWhile_cons, List.dropWhile_cons, hx, ih (fun c hc => h c (by simp [hc]))]

theorem stripOpaque_eq {u : Rec} (h : ∀ s, u.path = .opaque s → OpaqueOK s) : Spec.stripOpaque u = potentiallyRstrip u := by
  unfold Spec.stripOpaque potentiallyRstrip
  cases hp : u.path with
  | list p => rfl
  | «opaque» s =>
    cases hf : u.fragment with
    | some f => simp
    | none =>
      cases hq : u.query with
      | some q => simp
      | none =>
        dsimp only
        rw [if_neg (by simp)]
        have : ∀ c ∈ s.reverse, (c == 32) = (isPySpace c || (decide (28 ≤ c) && decide (c ≤ 31))) := by
          intro c hc
          have := safeC0_print ((h s hp).chars c (List.mem_reverse.1 hc)).1
          unfold isPySpace
          rw [Bool.eq_iff_iff]
          simp
          omega
        rw [dropWhile_congr_mem this]

/-! ### The list of the query object -/

theorem queryList_eq {q : Option Str} (h : ∀ s, q = some s → IsStr s) : Spec.queryList q = spOfQuery q := by
  unfold Spec.queryList spOfQuery
  cases q with
  | none => rfl
  | some s => rw [Option.getD_some, parseQsl_eq, utf8Encode_eq _ (h s rfl)]

theorem keeps_query : KeepsForm (fun b => !Spec.querySet b) :=
  ⟨by decide, by decide, by decide, by decide, fun b hb => by
    have hb' : b < 128 := by
      simp only [isHex, isDigit, Bool.or_eq_true, Bool.and_eq_true, decide_eq_true_eq] at hb; omega
    have : ∀ b < 128, isHex b = true → (!Spec.querySet b) = true := by decide
    exact this b hb' hb⟩

theorem keeps_specialQuery : KeepsForm (fun b => !Spec.specialQuerySet b) :=
  ⟨by decide, by decide, by decide, by decide, fun b hb => by
    have hb' : b < 128 := by
      simp only [isHex, isDigit, Bool.or_eq_true, Bool.and_eq_true, decide_eq_true_eq] at hb; omega
    have : ∀ b < 128, isHex b = true → (!Spec.specialQuerySet b) = true := by decide
    exact this b hb' hb⟩

theorem encodeQuery_list {u : Rec} {t : Str} (ht : IsScalarStr t) :
    spOfQuery (some (encodeQuery .utf8 u t)) = Spec.urlencodedParse (Spec.utf8 t) := by
  have key : ∀ (safe set : Nat → Bool), Agree safe set → KeepsForm (fun b => !set b) →
      spOfQuery (some (utf8PercentEncode t safe)) = Spec.urlencodedParse (Spec.utf8 t) := by
    intro safe set ha hk
    have hbytes : ∀ b ∈ Spec.utf8 t, b < 256 := by
      rw [← utf8Encode_eq t ht.isStr]
      exact utf8Encode_bytes t ht.isStr
    have e : utf8PercentEncode t safe = (Spec.utf8 t).flatMap (encByte fun b => !set b) := by
      rw [utf8PercentEncode_spec ht.str ha]
      unfold Spec.percentEncode
      congr 1
    have hascii : ∀ c ∈ utf8PercentEncode t safe, c < 128 := by
      intro c hc
      rw [utf8PercentEncode_eq, List.mem_flatMap] at hc
      obtain ⟨b, hb, hc⟩ := hc
      exact quotePlus_ascii (utf8Encode_bytes t ht.isStr b hb) hc
    unfold spOfQuery
    rw [Option.getD_some, parseQsl_eq, utf8Encode_ascii hascii, e, urlencodedParse_enc hk _ hbytes]
  unfold encodeQuery
  rw [ite_self]
  cases u.isSpecial with
  | true => exact key _ _ agree_specialQuery keeps_specialQuery
  | false => exact key _ _ agree_query keeps_query

/-! ### The attributes -/

variable {o : URLObj}

theorem done_protocol (h : ObjOK P o) {v : Str} (hs : IsScalarStr v)
    (hp : ∀ r, takeScheme (removeTabNewline (v ++ u!":")) = some (u!"file", r) → o.url.port = some 0 →
      o.url.includesCredentials = false → o.url.isSpecial = true → o.url.scheme = u!"file")
    (hd : env.maxStrDigits = 0 ∨ v.length + 1 ≤ env.maxStrDigits) :
    Done (Performs (hostOf env.quiet) o (.protocol v)) (setProtocol env o v) := by
  refine runs_setter (ov := .schemeStart) ?_
  refine m_start (pp := []) (simOK_setter ?_ (by simpa using hd)) (fun h => by cases h)
    (fun buf r ht => ⟨fun _ h0 h1 h2 h3 hb => h3 (hp r (by rw [ht, hb]) h0 h1 h2), ?_⟩) (fun h => by cases h)
  · intro c hc
    rcases List.mem_append.1 hc with hc | hc
    · exact hs c hc
    · rw [List.mem_singleton.1 hc]; decide
  · intro _ hf
    refine (h.url.auth.special ?_).1
    unfold Rec.isSpecial
    rw [hf]; decide

theorem done_username {v : Str} (hs : IsScalarStr v) : Done (Performs (hostOf env.quiet) o (.username v)) (setUsername o v) := by
  unfold setUsername Performs Spec.encodeUserinfo
  dsimp only
  rw [cannotHaveUPP_eq, encode_each agree_userinfo hs]
  exact done_ite (fun _ => done_const fun _ _ => Iff.rfl) (fun _ => done_const fun _ _ => Iff.rfl)

theorem done_password {v : Str} (hs : IsScalarStr v) : Done (Performs (hostOf env.quiet) o (.password v)) (setPassword o v) := by
  unfold setPassword Performs Spec.encodeUserinfo
  dsimp only
  rw [cannotHaveUPP_eq, encode_each agree_userinfo hs]
  exact done_ite (fun _ => done_const fun _ _ => Iff.rfl) (fun _ => done_const fun _ _ => Iff.rfl)

theorem done_host {v : Str} (hs : IsScalarStr v)
    (hp : o.url.scheme ≠ u!"file" → (hostSpan o.url.isSpecial false (removeTabNewline v)).2.head? ≠ some c!":" →
      HostPortOK (hostSpan o.url.isSpecial false (removeTabNewline v)).1 o.url) (hd : env.maxStrDigits = 0 ∨ v.length ≤ env.maxStrDigits) :
    Done (Performs (hostOf env.quiet) o (.host v)) (setHost env o v) := by
  unfold setHost Performs
  dsimp only
  rw [isOpaque_rec]
  refine done_ite (fun _ => done_const fun _ _ => Iff.rfl) fun ho => runs_setter (ov := .host) ?_
  obtain ⟨pp, hpp⟩ := list_of_not_opaque ho
  exact m_host (i := 0) (simOK_setter hs hd) rfl (Nat.zero_le _) _ _ hpp (fun _ => hp) (.inl rfl)

theorem done_hostname {v : Str} (hs : IsScalarStr v)
    (hp : o.url.scheme ≠ u!"file" → (hostSpan o.url.isSpecial false (removeTabNewline v)).2.head? ≠ some c!":" →
      HostPortOK (hostSpan o.url.isSpecial false (removeTabNewline v)).1 o.url) (hd : env.maxStrDigits = 0 ∨ v.length ≤ env.maxStrDigits) :
    Done (Performs (hostOf env.quiet) o (.hostname v)) (setHostname env o v) := by
  unfold setHostname Performs
  dsimp only
  rw [isOpaque_rec]
  refine done_ite (fun _ => done_const fun _ _ => Iff.rfl) fun ho => runs_setter (ov := .hostname) ?_
  obtain ⟨pp, hpp⟩ := list_of_not_opaque ho
  exact m_host (i := 0) (simOK_setter hs hd) rfl (Nat.zero_le _) _ _ hpp (fun _ => hp) (.inr rfl)

theorem done_port (h : ObjOK P o) {v : Str} (hs : IsScalarStr v) (hd : env.maxStrDigits = 0 ∨ v.length ≤ env.maxStrDigits) :
    Done (Performs (hostOf env.quiet) o (.port v)) (setPort env o v) := by
  unfold setPort Performs
  dsimp only
  rw [cannotHaveUPP_eq]
  refine done_ite (fun _ => done_const fun _ _ => Iff.rfl) fun ho => ?_
  cases v with
  | nil => exact done_const fun _ _ => Iff.rfl
  | cons c cs =>
    refine runs_setter (ov := .port) ?_
    have hpp : ∃ pp, o.url.path = .list pp := by
      have := h.url.path
      unfold PathWF at this
      cases hp : o.url.path with
      | list pp => exact ⟨pp, rfl⟩
      | «opaque» t =>
        rw [hp] at this
        unfold Rec.cannotHaveUPP Rec.hostNoneOrEmpty at ho
        rw [this.2] at ho
        simp at ho
    obtain ⟨pp, hpp⟩ := hpp
    exact m_port (i := 0) (simOK_setter hs hd) rfl (Nat.zero_le _) _ _ _ hpp

theorem done_pathname {v : Str} (hs : IsScalarStr v) (hd : env.maxStrDigits = 0 ∨ v.length ≤ env.maxStrDigits) :
    Done (Performs (hostOf env.quiet) o (.pathname v)) (setPathname env o v) := by
  unfold setPathname Performs
  dsimp only
  rw [isOpaque_rec]
  refine done_ite (fun _ => done_const fun _ _ => Iff.rfl) fun ho => runs_setter (ov := .pathStart) ?_
  exact m_pathStart (i := 0) (pp := []) (simOK_setter hs hd) rfl (Nat.zero_le _) _ _ _ rfl

theorem opaqueOK_of (h : ObjOK P o) : ∀ s, o.url.path = .opaque s → OpaqueOK s := by
  intro s hp
  have := h.url.path
  unfold PathWF at this
  rw [hp] at this
  exact this.1

theorem done_hash (h : ObjOK P o) {v : Str} (hs : IsScalarStr v) (hd : env.maxStrDigits = 0 ∨ v.length ≤ env.maxStrDigits) :
    Done (Performs (hostOf env.quiet) o (.hash v)) (setHash env o v) := by
  unfold setHash Performs
  dsimp only
  cases v with
  | nil =>
    rw [stripOpaque_eq (u := { o.url with fragment := none }) (opaqueOK_of h)]
    exact done_const fun _ _ => Iff.rfl
  | cons c cs =>
    rw [removeLeading_eq]
    refine runs_setter (ov := .fragment) ?_
    refine m_fragment (i := 0) (f := []) (simOK_setter (hs.mono (dropLead_subset _ _)) ?_) rfl (Nat.zero_le _) _ _ _ _ rfl
    rcases hd with hd | hd
    · exact .inl hd
    · exact .inr (Nat.le_trans (dropLead_length _ _) hd)

theorem done_search (h : ObjOK P o) {v : Str} (hs : IsScalarStr v) (ht : ∀ c ∈ v, ¬ Spec.TabOrNewline c)
    (hd : env.maxStrDigits = 0 ∨ v.length ≤ env.maxStrDigits) :
    Done (Performs (hostOf env.quiet) o (.search v)) (setSearch env o v) := by
  cases hv : v with
  | nil =>
    unfold setSearch Performs
    dsimp only
    rw [stripOpaque_eq (u := { o.url with query := none }) (opaqueOK_of h)]
    rw [rstrip_query]
    exact done_const fun _ _ => Iff.rfl
  | cons c cs =>
    have hne : v ≠ [] := by rw [hv]; simp
    rw [← hv]
    have hds : IsScalarStr (dropLead 63 v) := hs.mono (dropLead_subset _ _)
    have htab : removeTabNewline (dropLead 63 v) = dropLead 63 v := by
      rw [removeTabNewline_spec, List.filter_eq_self]
      intro c hc
      simpa using ht c (dropLead_subset _ _ c hc)
    have hrun := runs_setter (env := env) (o := { o with params := Spec.urlencodedParse (Spec.utf8 (dropLead 63 v)) })
      (u := { o.url with query := some [] }) (v := dropLead 63 v) (ov := .query) (by
        refine m_query (i := 0) (q := []) (simOK_setter hds ?_) rfl (Nat.zero_le _) _ _ _ rfl
        rcases hd with hd | hd
        · exact .inl hd
        · exact .inr (Nat.le_trans (dropLead_length _ _) hd))
    have heq : setSearch env o v =
        setterParse env { o with params := Spec.urlencodedParse (Spec.utf8 (dropLead 63 v)) } { o.url with query := some [] }
          (dropLead 63 v) .query := by
      have h1 := setSearch_eq env o v hne
      have h2 : setSearch env o v =
        match setterParse env o { o.url with query := some [] } (dropLead 63 v) .query with
        | (.ok _, o') => (.ok (), { o' with params := spOfQuery o'.url.query })
        | (.error e, o') => (.error e, o') := by
        unfold setSearch
        rw [if_neg (by simpa using hne)]
        rfl
      have h3 : setterParse env { o with params := Spec.urlencodedParse (Spec.utf8 (dropLead 63 v)) } { o.url with query := some [] }
          (dropLead 63 v) .query =
          ((setterParse env o { o.url with query := some [] } (dropLead 63 v) .query).1,
            { (setterParse env o { o.url with query := some [] } (dropLead 63 v) .query).2 with
              params := Spec.urlencodedParse (Spec.utf8 (dropLead 63 v)) }) := rfl
      rw [h3]
      rcases hr : setterParse env o { o.url with query := some [] } (dropLead 63 v) .query with ⟨r, o'⟩
      rw [hr] at h2
      cases r with
      | error e => rw [h1] at h2; cases h2
      | ok x =>
        dsimp only at h2 ⊢
        rw [h2]
        rw [h2] at h1
        have h4 : spOfQuery o'.url.query = spOfQuery (some (encodeQuery .utf8 o.url (removeTabNewline (dropLead 63 v)))) :=
          congrArg (fun x : SetOut => x.2.params) h1
        rw [h4, htab, encodeQuery_list hds]
    rw [heq]
    unfold Performs
    dsimp only
    rw [removeLeading_eq]
    have : ∀ (P Q : Bool → URLObj → Prop) r, Done Q r → Done (fun f o' => if v = [] then P f o' else Q f o') r := by
      intro P Q r h f o'
      show (if v = [] then P f o' else Q f o') ↔ _
      rw [if_neg hne]
      exact h f o'
    exact this _ _ _ hrun

/-! ### The whole URL -/

theorem done_href (h : ObjOK (fun _ _ => True) o) {v : Str} (hs : IsScalarStr v) (hd : env.maxStrDigits = 0 ∨ v.length ≤ env.maxStrDigits) :
    Done (Performs (hostOf env.quiet) o (.href v)) (setHref env o v) := by
  have key := parses_eval (env := env.quiet) (e := .utf8) (base := none) hs trivial trivial hd (by simp) (by simp)
  have hok : ObjOK (fun _ _ => True) (setHref env o v).2 := objOK_op (op := .href v) (hostSpec_true _) h hs.isStr
  intro failed o'
  unfold setHref at hok ⊢
  rw [basicParse_toExcept] at hok ⊢
  have hP : Performs (hostOf env.quiet) o (.href v) failed o' ↔
      (failed = (outcome (eval env.quiet .utf8 none none .schemeStart (prepared v none) {})).failed ∧
        o' = match outcome (eval env.quiet .utf8 none none .schemeStart (prepared v none) {}) with
          | .failure _ => o
          | .ok u => ⟨u, Spec.queryList u.query⟩) := by
    constructor
    · rintro ⟨r, hr, hf, ho⟩
      have := hr.unique key
      subst this
      exact ⟨hf, ho⟩
    · rintro ⟨hf, ho⟩
      exact ⟨_, key, hf, ho⟩
  rw [hP]
  clear hP key
  generalize eval env.quiet .utf8 none none .schemeStart (prepared v none) {} = x at hok ⊢
  rcases x with ⟨r, u⟩
  cases r with
  | error err =>
    show (failed = true ∧ o' = o) ↔ (true = failed ∧ o = o')
    constructor
    · rintro ⟨rfl, rfl⟩; exact ⟨rfl, rfl⟩
    · rintro ⟨rfl, rfl⟩; exact ⟨rfl, rfl⟩
  | ok y =>
    have hok : ObjOK (fun _ _ => True) ⟨u, spOfQuery u.query⟩ := hok
    show (failed = false ∧ o' = ⟨u, Spec.queryList u.query⟩) ↔ (false = failed ∧ ⟨u, spOfQuery u.query⟩ = o')
    rw [queryList_eq (fun q hq c hc => by
      have := (hok.url.queryOK q hq c hc).1.2
      omega)]
    constructor
    · rintro ⟨rfl, rfl⟩; exact ⟨rfl, rfl⟩
    · rintro ⟨rfl, rfl⟩; exact ⟨rfl, rfl⟩

/-! ### The parameters -/

theorem updateQuery_eq (h : ObjOK P o) {l : Params} (hl : ∀ p ∈ l, IsStr p.1 ∧ IsStr p.2) (ht : Spec.NoTilde l) :
    Spec.updateQuery l o.url = spUpdate l o.url := by
  unfold Spec.updateQuery spUpdate spToStr
  dsimp only
  rw [Props.C09_urlencode_is_standard_partial l hl ht, stripOpaque_eq (u := { o.url with query := none }) (opaqueOK_of h)]
  cases Spec.urlencodedSerialize Spec.urlencodedKeep l <;> rfl

theorem done_lists (h : ObjOK P o) {l : Params} (hl : ∀ p ∈ l, IsStr p.1 ∧ IsStr p.2) (ht : Spec.NoTilde l) :
    Done (Spec.Lists o l) (spMutate o l) := by
  unfold Spec.Lists spMutate
  rw [updateQuery_eq h hl ht]
  exact done_const fun _ _ => Iff.rfl

theorem setPair_eq (n v : Str) (hn : Spec.PlainName n) (w : ParamVal) (hw : Spec.PlainName w.toStr) (l : Params) :
    Spec.setPair n w.toStr l = spSet l n w := by
  have e1 := decoded_plain hn.1 hn.2
  have e2 := decoded_plain hw.1 hw.2
  have key : ∀ l : Params, (∀ p ∈ l, p.1 ≠ n) → Spec.setPair n w.toStr l = l ++ [(n, w.toStr)] := by
    intro l
    induction l with
    | nil => intro _; rfl
    | cons p ps ih =>
      intro h
      unfold Spec.setPair
      rw [if_neg (h p (by simp)), ih fun q hq => h q (by simp [hq])]
      rfl
  have key2 : ∀ (pre : Params) w' post, (∀ p ∈ pre, p.1 ≠ n) →
      Spec.setPair n w.toStr (pre ++ (n, w') :: post) = pre ++ (n, w.toStr) :: post.filter (fun p => p.1 ≠ n) := by
    intro pre w' post
    induction pre with
    | nil => intro _; show Spec.setPair n w.toStr ((n, w') :: post) = _; unfold Spec.setPair; rw [if_pos rfl]; rfl
    | cons p ps ih =>
      intro h
      show Spec.setPair n w.toStr (p :: (ps ++ (n, w') :: post)) = _
      unfold Spec.setPair
      rw [if_neg (h p (by simp)), ih fun q hq => h q (by simp [hq])]
      rfl
  rcases split_first n l with h | ⟨pre, w', post, rfl, h⟩
  · rw [key l h, Props.C49_set_new l n w hn.1.isStr hw.1.isStr (by rw [e1]; exact h), e1, e2]
  · have := Props.C49_set_replaces pre post w' n w hn.1.isStr hw.1.isStr (by rw [e1]; exact h)
    rw [e1, e2] at this
    rw [key2 _ _ _ h, this]

end Urlstd
