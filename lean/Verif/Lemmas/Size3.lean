/-
The length of what a text denotes, rule by rule.
-/
import Verif.Lemmas.Size2
import Verif.Spec.Size

set_option linter.unusedVariables false

namespace Urlstd

open Spec (IsStr IdnaFactor)

/-- a fragment with its "#" -/
def fragLen (f : Option Str) : Nat := f.elim 0 fun x => x.length + 1

/-- the lengths of the components, the query being measured by `Q` -/
def bulk (Q : Option Str → Nat) (u : Rec) : Nat :=
  u.scheme.length + u.username.length + u.password.length + u.serializeHost.length + u.serializePort.length +
    (serializePath u.path).length + Q u.query + fragLen u.fragment

/-- the lengths of the components other than the scheme -/
def bulkRest (Q : Option Str → Nat) (u : Rec) : Nat :=
  u.username.length + u.password.length + u.serializeHost.length + u.serializePort.length +
    (serializePath u.path).length + Q u.query + fragLen u.fragment

/-- a measure of queries that encoding a text increases at most `C` times -/
structure QOK (C : Nat) (Q : Option Str → Nat) : Prop where
  none : Q none = 0
  some : ∀ sp v, IsStr v → Q (some (Spec.queryEncode sp v)) ≤ C * v.length + C

variable {env : Env} {C : Nat} {Q : Option Str → Nat}

theorem qlen_map (hQ : QOK C Q) (sp : Bool) {q : Option Str} (hq : ∀ x, q = some x → IsStr x) :
    Q (q.map (Spec.queryEncode sp)) ≤ C * (q.elim [] fun x => u!"?" ++ x).length := by
  cases q with
  | none => simp [hQ.none]
  | some v =>
    have := hQ.some sp v (hq v rfl)
    simp only [Option.map_some, Option.elim, List.length_append, Nat.mul_add]
    have : C * List.length u!"?" = C := by simp
    omega

theorem fraglen_map (hC : 12 ≤ C) {f : Option Str} (hf : ∀ x, f = some x → IsStr x) :
    fragLen (f.map Spec.fragmentEncode) ≤ C * (f.elim [] fun x => u!"#" ++ x).length := by
  cases f with
  | none => simp [fragLen]
  | some v =>
    have := pe_length (fun b => 0x20 ≤ b && b ≤ 0x7E && !(u!" \"<>`").contains b) false (hf v rfl) hC
    simp only [Option.map_some, Option.elim, List.length_append, Nat.mul_add, fragLen, Spec.fragmentEncode]
    have : C * List.length u!"#" = C := by simp
    omega

theorem tail_len (hC : 12 ≤ C) (hQ : QOK C Q) (sp : Bool) {t : Str} {q f : Option Str} (hs : IsStr (Spec.tailText t q f)) :
    IsStr t ∧ Q (q.map (Spec.queryEncode sp)) + fragLen (f.map Spec.fragmentEncode) + C * t.length ≤ C * (Spec.tailText t q f).length := by
  unfold Spec.tailText at hs ⊢
  have h1 := qlen_map hQ sp (q := q) (by
    rintro x rfl c hc
    exact hs c (by simp [hc]))
  have h2 := fraglen_map hC (f := f) (by
    rintro x rfl c hc
    exact hs c (by simp [hc]))
  refine ⟨fun c hc => hs c (by simp [hc]), ?_⟩
  simp only [List.length_append, Nat.mul_add]
  omega

theorem port_len {u : Rec} (h : ∀ p, u.port = some p → p ≤ 65535) : u.serializePort.length ≤ 6 := by
  unfold Rec.serializePort
  cases hp : u.port with
  | none => simp
  | some p =>
    have := natDec_length (n := p) (k := 5) (by have := h p hp; omega) (by decide)
    simp only [List.length_cons]
    omega

theorem portOf_len {sc : Str} {x : Option Str} {n : Option Nat} (h : Spec.portOf env sc x = .ok n) {u : Rec} (hu : u.port = n) (hC : 12 ≤ C) :
    u.serializePort.length ≤ C * (x.elim [] fun x => u!":" ++ x).length := by
  cases x with
  | none =>
    cases h
    simp [Rec.serializePort, hu]
  | some d =>
    have h6 : u.serializePort.length ≤ 6 := by
      apply port_len
      intro p hp
      rw [hu] at hp
      subst hp
      simp only [Spec.portOf] at h
      repeat' split at h
      all_goals cases h
      omega
    simp only [Option.elim, List.length_append, Nat.mul_add]
    have : C * List.length u!":" = C := by simp
    omega

theorem userinfo_len (hC : 12 ≤ C) {x : Option Str} (hs : ∀ y, x = some y → IsStr y) :
    (Spec.userinfoEncode ((x.getD []).takeWhile (· != c!":"))).length +
      (Spec.userinfoEncode ((x.getD []).dropWhile (· != c!":")).tail).length ≤ C * (x.elim [] fun x => x ++ u!"@").length := by
  cases x with
  | none => simp [Spec.userinfoEncode, Spec.utf8, Spec.percentEncode, Spec.combineSurrogates]
  | some y =>
    have hy := hs y rfl
    have e := List.takeWhile_append_dropWhile (p := (· != c!":")) (l := y)
    have h1 := pe_length (fun b => !Spec.userinfoSet b) false (s := y.takeWhile (· != c!":"))
      (fun c hc => hy c ((List.takeWhile_sublist _).subset hc)) hC
    have h2 := pe_length (fun b => !Spec.userinfoSet b) false (s := (y.dropWhile (· != c!":")).tail)
      (fun c hc => hy c ((List.dropWhile_sublist _).subset (List.mem_of_mem_tail hc))) hC
    have h3 := congrArg List.length e
    rw [List.length_append] at h3
    have h4 : (y.dropWhile (· != c!":")).tail.length ≤ (y.dropWhile (· != c!":")).length := by simp
    have h5 := Nat.mul_le_mul_left C h4
    simp only [Option.getD_some, Option.elim, List.length_append, Nat.mul_add, Spec.userinfoEncode]
    rw [← h3, Nat.mul_add]
    omega

theorem parts_len (hC : 12 ≤ C) (hQ : QOK C Q) (hi : IdnaFactor env C) {sc : Str} {p : Spec.Parts} (hs : IsStr p.text) {u : Rec}
    (h : p.url env sc = .ok u) : bulk Q u ≤ sc.length + C * p.text.length + 4 := by
  unfold Spec.Parts.url at h
  split at h
  · cases h
  · cases hh : (hostParse env p.host (!Spec.isSpecial sc)).res with
    | error e => rw [hh] at h; cases h
    | ok v =>
      cases hp : Spec.portOf env sc p.port with
      | error e => rw [hh, hp] at h; cases h
      | ok n =>
        rw [hh, hp] at h
        cases h
        unfold Spec.Parts.text at hs ⊢
        have h1 := userinfo_len hC (x := p.userinfo) (by
          intro y hy c hc
          exact hs c (by simp [hy, hc]))
        have h2 := hostParse_length hC hi (t := p.host) (fun c hc => hs c (by simp [hc])) hh
        have h3 := portOf_len hp (u := { scheme := [], port := n }) rfl hC
        have h4 := pathOf_length sc (t := p.path) (fun c hc => hs c (by simp [hc])) hC
        have h5 := qlen_map hQ (Spec.isSpecial sc) (q := p.query) (by
          intro y hy c hc
          exact hs c (by simp [hy, hc]))
        have h6 := fraglen_map hC (f := p.fragment) (by
          intro y hy c hc
          exact hs c (by simp [hy, hc]))
        simp only [List.length_append, Nat.mul_add]
        unfold bulk
        dsimp only [Rec.serializeHost]
        rw [pathLen_serialize]
        simp only [Rec.serializePort] at h3 ⊢
        omega

theorem bulk_rest (u : Rec) : bulk Q u = u.scheme.length + bulkRest Q u := by unfold bulk bulkRest; omega

theorem C_one : C * 1 = C := Nat.mul_one C

theorem relative_len (hC : 12 ≤ C) (hQ : QOK C Q) (hi : IdnaFactor env C) {b : Rec} {r : Str} {x : Except Err Rec} (hs : IsStr r)
    (h : Spec.Relative env b r x) {u : Rec} (hx : x = .ok u) : bulk Q u ≤ bulk Q b + C * r.length + 1 := by
  cases h with
  | same q f ok =>
    cases hx
    have h1 := (tail_len hC hQ (Spec.isSpecial b.scheme) hs).2
    cases q with
    | none =>
      simp only [Option.map_none, hQ.none] at h1
      unfold bulk
      dsimp only [Rec.serializeHost, Rec.serializePort, Option.map_none, Option.none_or]
      omega
    | some q =>
      simp only [Option.map_some] at h1
      unfold bulk
      dsimp only [Rec.serializeHost, Rec.serializePort, Option.map_some, Option.some_or]
      omega
  | path p t q f hp hne ht ok =>
    cases hx
    obtain ⟨ht, h1⟩ := tail_len hC hQ (Spec.isSpecial b.scheme) hs
    have h2 := followed_length false (Spec.isSpecial b.scheme) ht hC (Spec.parent false p)
    have h3 := pathLen_parent false p
    have h4 := pathLen_serialize p
    unfold bulk
    dsimp only [Rec.serializeHost, Rec.serializePort]
    rw [pathLen_serialize, hp]
    omega
  | rooted s t q f h0 ht ok =>
    cases hx
    obtain ⟨ht, h1⟩ := tail_len hC hQ (Spec.isSpecial b.scheme) fun c hc => hs c (List.mem_cons_of_mem _ hc)
    have h2 := followed_length false (Spec.isSpecial b.scheme) ht hC []
    simp only [List.length_cons, Nat.mul_add, Nat.mul_one]
    unfold bulk
    dsimp only [Rec.serializeHost, Rec.serializePort]
    rw [pathLen_serialize]
    simp only [pathLen, List.map_nil, List.sum_nil] at h2 ⊢
    omega
  | authority s1 s2 sl p h1 h2 hsl ok =>
    have h3 := parts_len hC hQ hi (fun c hc => hs c (by simp [hc])) hx
    simp only [List.length_cons, List.length_append, Nat.mul_add, Nat.mul_one]
    unfold bulk at h3 ⊢
    omega

theorem inheritedHost_len (base : Option Rec) :
    (match Spec.inheritedHost base with | none => [] | some h => hostSerialize h).length ≤ base.elim 0 fun b => b.serializeHost.length := by
  unfold Spec.inheritedHost
  cases base with
  | none => simp [hostSerialize]
  | some b =>
    dsimp only [Option.elim, Rec.serializeHost]
    by_cases h : b.scheme = u!"file"
    · rw [if_pos h]
      exact Nat.le_refl _
    · rw [if_neg h]
      simp [hostSerialize]

theorem inheritedDrive_len (base : Option Rec) (t : Str) :
    pathLen (Spec.inheritedDrive base t) ≤ base.elim 0 fun b => (serializePath b.path).length := by
  unfold Spec.inheritedDrive
  cases base with
  | none => simp [pathLen]
  | some b =>
    dsimp only [Option.elim]
    split
    · rename_i p ps hp
      rw [hp, pathLen_serialize]
      split
      · simp only [pathLen, List.map_cons, List.sum_cons, List.map_nil, List.sum_nil]; omega
      · simp [pathLen]
    · simp [pathLen]

theorem file_len (hC : 12 ≤ C) (hQ : QOK C Q) (hi : IdnaFactor env C) {base : Option Rec} {r : Str} {x : Except Err Rec} (hs : IsStr r)
    (h : Spec.FileText env base r x) {u : Rec} (hx : x = .ok u) :
    u.scheme = u!"file" ∧ bulkRest Q u ≤ (base.elim 0 (bulkRest Q)) + C * r.length + 1 := by
  have e0 : pathLen [] = 0 := rfl
  cases h with
  | noHost s1 s2 path q f h1 h2 hp ok =>
    cases hx
    obtain ⟨ht, h3⟩ := tail_len hC hQ true fun c hc => hs c (List.mem_cons_of_mem _ (List.mem_cons_of_mem _ hc))
    have h4 := pathOf_length u!"file" ht hC
    refine ⟨rfl, ?_⟩
    simp only [List.length_cons, Nat.mul_add, Nat.mul_one]
    unfold bulkRest Spec.fileURL
    dsimp only [Rec.serializeHost, Rec.serializePort, hostSerialize]
    rw [pathLen_serialize]
    simp only [List.length_nil]
    omega
  | host s1 s2 host path q f v h1 h2 hne hh hd hv hp ok =>
    cases hx
    obtain ⟨ht, h3⟩ := tail_len hC hQ true (t := path) (q := q) (f := f) fun c hc => hs c (by simp [hc])
    have h4 := pathOf_length u!"file" ht hC
    have h5 := hostParse_length hC hi (t := host) (fun c hc => hs c (by simp [hc])) hv
    have h6 : (hostSerialize (if v = .str u!"localhost" then .str [] else v)).length ≤ (hostSerialize v).length := by
      split
      · simp [hostSerialize]
      · exact Nat.le_refl _
    refine ⟨rfl, ?_⟩
    simp only [List.length_cons, List.length_append, Nat.mul_add, Nat.mul_one]
    unfold bulkRest Spec.fileURL
    dsimp only [Rec.serializeHost, Rec.serializePort]
    rw [pathLen_serialize]
    simp only [List.length_nil]
    omega
  | badHost => cases hx
  | drive s1 s2 host path q f h1 h2 hd hp ok =>
    cases hx
    obtain ⟨ht, h3⟩ := tail_len hC hQ true (t := path) (q := q) (f := f) fun c hc => hs c (by simp [hc])
    have h4 := followed_length true true (t := host ++ path) (fun c hc => (List.mem_append.1 hc).elim
      (fun h => hs c (by simp [h])) (ht c)) hC []
    refine ⟨rfl, ?_⟩
    simp only [List.length_cons, List.length_append, Nat.mul_add, Nat.mul_one] at h4 ⊢
    unfold bulkRest Spec.fileURL
    dsimp only [Rec.serializeHost, Rec.serializePort, hostSerialize]
    rw [pathLen_serialize]
    simp only [List.length_nil]
    omega
  | rooted s t q f h0 ht ok =>
    cases hx
    obtain ⟨ht, h3⟩ := tail_len hC hQ true (t := t) (q := q) (f := f) fun c hc => hs c (by simp [hc])
    have h4 := followed_length true true ht hC (Spec.inheritedDrive base t)
    have h5 := inheritedHost_len base
    have h6 := inheritedDrive_len base t
    refine ⟨rfl, ?_⟩
    simp only [List.length_cons, Nat.mul_add, Nat.mul_one]
    cases base with
    | none =>
      simp only [Option.elim] at h5 h6 ⊢
      unfold bulkRest Spec.fileURL
      dsimp only [Spec.inheritedHost, Rec.serializeHost, Rec.serializePort, hostSerialize]
      rw [pathLen_serialize]
      simp only [List.length_nil]
      omega
    | some b =>
      simp only [Option.elim] at h5 h6 ⊢
      unfold bulkRest Spec.fileURL
      dsimp only [Rec.serializePort]
      rw [pathLen_serialize]
      simp only [List.length_nil]
      have e : ({ scheme := u!"file", host := Spec.inheritedHost (some b), path := .list (Spec.follow true (Spec.inheritedDrive (some b) t) (Spec.segmentsOf true t)), query := q.map (Spec.queryEncode true), fragment := f.map Spec.fragmentEncode } : Rec).serializeHost.length ≤ b.serializeHost.length := h5
      omega
  | plain t q f hb ht ok =>
    cases hx
    obtain ⟨ht, h3⟩ := tail_len hC hQ true hs
    have h4 := followed_length true true ht hC []
    refine ⟨rfl, ?_⟩
    unfold bulkRest Spec.fileURL
    dsimp only [Rec.serializeHost, Rec.serializePort, hostSerialize]
    rw [pathLen_serialize]
    simp only [List.length_nil]
    omega
  | path b p t q f hbase hb hp hne ht ok =>
    cases hx
    subst hbase
    obtain ⟨ht, h3⟩ := tail_len hC hQ true hs
    have h4 := followed_length true true ht hC (if Spec.DriveFirst t then [] else Spec.parent true p)
    have h5 := pathLen_parent true p
    have h6 : pathLen (if Spec.DriveFirst t then [] else Spec.parent true p) ≤ pathLen p := by
      split
      · simp [pathLen]
      · exact h5
    refine ⟨rfl, ?_⟩
    unfold bulkRest Spec.fileURL
    dsimp only [Rec.serializeHost, Rec.serializePort, Option.elim]
    rw [pathLen_serialize, hp, pathLen_serialize]
    simp only [List.length_nil]
    omega
  | same b q f hbase hb hne ok =>
    cases hx
    subst hbase
    have h1 := (tail_len hC hQ true hs).2
    refine ⟨rfl, ?_⟩
    cases q with
    | none =>
      simp only [Option.map_none, hQ.none] at h1
      unfold bulkRest
      dsimp only [Rec.serializeHost, Rec.serializePort, Option.map_none, Option.none_or, Option.elim]
      simp only [List.length_nil]
      omega
    | some q =>
      simp only [Option.map_some] at h1
      unfold bulkRest
      dsimp only [Rec.serializeHost, Rec.serializePort, Option.map_some, Option.some_or, Option.elim]
      simp only [List.length_nil]
      omega
  | empty b p hbase hb hp =>
    cases hx
    subst hbase
    refine ⟨rfl, ?_⟩
    unfold bulkRest
    dsimp only [Rec.serializeHost, Rec.serializePort, Option.elim, fragLen]
    rw [pathLen_serialize, hp, pathLen_serialize, pathLen_append]
    simp only [List.length_nil]
    have : pathLen [[]] = 1 := rfl
    omega

theorem scheme_pos {sc : Str} (h : Spec.SchemeText sc) : 1 ≤ sc.length := by
  obtain ⟨c, cs, rfl, -⟩ := h
  simp

/-- what a text denotes is at most `C` times as long, apart from what it takes from the base -/
theorem denotes_len (hC : 12 ≤ C) (hQ : QOK C Q) (hi : IdnaFactor env C) {base : Option Rec} {s : Str} (hs : IsStr s) {u : Rec}
    (h : Spec.Denotes env base s (.ok u)) :
    (base = none → bulk Q u + 6 ≤ C * s.length) ∧ bulk Q u ≤ (base.elim 0 (bulk Q)) + C * s.length + 1 := by
  have hl : ∀ sc : Str, (Spec.toLower sc).length = sc.length := fun sc => by simp [Spec.toLower]
  have hp : ∀ {sc : Str}, Spec.SchemeText sc → 1 ≤ sc.length ∧ 12 * sc.length ≤ C * sc.length :=
    fun h => ⟨scheme_pos h, Nat.mul_le_mul_right _ hC⟩
  have e1 : C * List.length u!":" = C := by simp
  have e2 : C * List.length u!"://" = C * 3 := by simp
  have e3 : C * List.length u!":/" = C * 2 := by simp
  generalize hx : (.ok u : Except Err Rec) = x at h
  cases h with
  | file sc r x hsc hf h =>
    subst hx
    obtain ⟨h1, h2⟩ := file_len hC hQ hi (fun c hc => hs c (by simp [hc])) h rfl
    have ⟨h3, h4⟩ := hp hsc
    have h5 := congrArg List.length h1
    have h6 := congrArg List.length hf
    rw [hl] at h6
    rw [bulk_rest]
    simp only [List.length_append, Nat.mul_add]
    have e4 : List.length u!"file" = 4 := rfl
    cases base with
    | none =>
      simp only [Option.elim] at h2 ⊢
      omega
    | some b =>
      simp only [Option.elim, bulk_rest] at h2 ⊢
      refine ⟨nofun, ?_⟩
      omega
  | special sc sl p hsc hs' hf hb hsl ok =>
    have h1 := parts_len hC hQ hi (fun c hc => hs c (by simp [hc])) hx.symm
    have ⟨h3, h4⟩ := hp hsc
    rw [hl] at h1
    simp only [List.length_append, Nat.mul_add]
    constructor <;> intros <;> omega
  | specialSlashes sc sl p hsc hs' hf hsl ok =>
    have h1 := parts_len hC hQ hi (fun c hc => hs c (by simp [hc])) hx.symm
    have ⟨h3, h4⟩ := hp hsc
    rw [hl] at h1
    simp only [List.length_append, Nat.mul_add]
    constructor <;> intros <;> omega
  | sameScheme sc r b x hsc hs' hf hbase hb h2 h =>
    subst hx hbase
    have h1 := relative_len hC hQ hi (fun c hc => hs c (by simp [hc])) h rfl
    refine ⟨nofun, ?_⟩
    simp only [List.length_append, Nat.mul_add, Option.elim]
    omega
  | authority sc p hsc hs' ok =>
    have h1 := parts_len hC hQ hi (fun c hc => hs c (by simp [hc])) hx.symm
    have ⟨h3, h4⟩ := hp hsc
    rw [hl] at h1
    simp only [List.length_append, Nat.mul_add]
    constructor <;> intros <;> omega
  | rooted sc t q f hsc hs' ht ok =>
    cases hx
    obtain ⟨ht, h1⟩ := tail_len hC hQ false (t := t) (q := q) (f := f) fun c hc => hs c (by simp [hc])
    have h2 := followed_length false false ht hC []
    have ⟨h3, h4⟩ := hp hsc
    have e0 : pathLen [] = 0 := rfl
    simp only [List.length_append, Nat.mul_add]
    unfold bulk
    dsimp only [Rec.serializeHost, Rec.serializePort]
    rw [pathLen_serialize, hl]
    simp only [List.length_nil]
    constructor <;> intros <;> omega
  | «opaque» sc t q f hsc hs' ht ok =>
    cases hx
    obtain ⟨ht, h1⟩ := tail_len hC hQ false (t := t) (q := q) (f := f) fun c hc => hs c (by simp [hc])
    have h2 := opaqueEncode_length ht hC
    have ⟨h3, h4⟩ := hp hsc
    simp only [List.length_append, Nat.mul_add]
    unfold bulk
    dsimp only [Rec.serializeHost, Rec.serializePort, serializePath]
    rw [hl]
    simp only [List.length_nil]
    constructor <;> intros <;> omega
  | noBase => cases hx
  | opaqueFragment f b t hbase hpath =>
    cases hx
    subst hbase
    have h1 := fraglen_map hC (f := some f) (by rintro x ⟨⟩ c hc; exact hs c (by simp [hc]))
    refine ⟨nofun, ?_⟩
    unfold bulk
    dsimp only [Rec.serializeHost, Rec.serializePort, Option.elim, Option.map_some] at h1 ⊢
    simp only [List.length_nil]
    omega
  | opaqueOther => cases hx
  | fileBase r b p x hr hbase hpath hf h =>
    subst hx hbase
    obtain ⟨h1, h2⟩ := file_len hC hQ hi hs h rfl
    refine ⟨nofun, ?_⟩
    simp only [Option.elim, bulk_rest] at h2 ⊢
    rw [h1, hf]
    omega
  | reference r b p x hr hbase hpath hf h =>
    subst hx hbase
    have h1 := relative_len hC hQ hi hs h rfl
    refine ⟨nofun, ?_⟩
    simp only [Option.elim]
    omega

end Urlstd
