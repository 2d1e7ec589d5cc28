/-
Runs of the parser that succeed without a validation error: the states of authorities, hosts, ports and files.
-/
import Verif.Lemmas.Writing1

set_option linter.unusedSimpArgs false
set_option linter.unusedVariables false

namespace Urlstd

open Spec (URLUnits QueryPart FragmentPart PathRelative PathAbsolute PathPart PortPart PortString Letter)

/-- a host that the host parser accepts without a validation error, with nothing in it that ends a host earlier -/
def FineHost (env : Env) (m : Bool) (h : Str) : Prop :=
  ((∀ c ∈ h, c ∉ u!"/?#\\:@[]") ∨ ∃ a, h = u!"[" ++ a ++ u!"]" ∧ ∀ c ∈ a, c ∉ u!"/?#\\@[]") ∧
    ∃ x, hostParse env h m = .ok x

section
variable {env : Env} {e : Encoding} {base : Option Rec}

/-- what follows an authority -/
def Stops (t : Str) : Prop := ∀ c, t.head? = some c → c = c!"/" ∨ c = c!"?" ∨ c = c!"#"

theorem stops_tail {p q f : Str} (hp : PathPart p) (hq : QueryPart q) (hf : FragmentPart f) : Stops (p ++ (q ++ f)) := by
  intro c hc
  rcases hp with rfl | ⟨p, rfl, hp⟩
  · rcases hq with rfl | ⟨q, rfl, hq⟩
    · rcases hf with rfl | ⟨f, rfl, hf⟩
      · cases hc
      · cases hc; simp
    · cases hc; simp
  · cases hc; simp

theorem Stops.end {c : Nat} {t : Str} (h : Stops (c :: t)) (sp : Bool) : isAuthorityEnd sp c = true := by
  rcases h c rfl with rfl | rfl | rfl <;> simp [isAuthorityEnd]

/-! ### Port -/

theorem portLoop_digits (env : Env) (t : Str) {d : Str} (hd : ∀ c ∈ d, isDigit c = true) : ∀ (i : Nat) (buf : Str) (url : Rec),
    portLoop env false (d ++ t) i buf url = portLoop env false t (i + d.length) (buf ++ d) url := by
  induction d with
  | nil => intro i buf url; simp
  | cons c d ih =>
    intro i buf url
    rw [List.cons_append]
    conv => lhs; unfold portLoop
    rw [if_pos (hd c (by simp)), ih (fun x hx => hd x (by simp [hx])), List.append_assoc, List.length_cons]
    congr 1
    omega

theorem portLoop_stop (env : Env) {t : Str} (ht : Stops t) (i : Nat) (buf : Str) (url : Rec) :
    portLoop env false t i buf url = portEnd env false i buf url := by
  cases t with
  | nil => rfl
  | cons c t =>
    unfold portLoop
    rw [if_neg, if_pos (by rw [ht.end]; rfl)]
    rcases ht c rfl with rfl | rfl | rfl <;> decide

theorem silent_port {d p q f : Str} (hd : PortString d) (hl : env.maxStrDigits = 0 ∨ d.length ≤ env.maxStrDigits) (hp : PathPart p)
    (hq : QueryPart q) (hf : FragmentPart f) {url : Rec} {segs : List Str} (hu : url.path = .list segs) :
    Silent env e base .port (d ++ (p ++ (q ++ f))) url url.scheme := by
  have hdig : ∀ c ∈ d, isDigit c = true := fun c hc => by rw [isDigit_iff]; exact hd.1 c hc
  have key : ∀ (s : Str) i, s.drop i = d ++ (p ++ (q ++ f)) → step env e s base none .port i url = portEnd env false (i + d.length) d url := by
    intro s i h
    show portLoop env false (s.drop i) i [] url = _
    rw [h, portLoop_digits env _ hdig, portLoop_stop env (stops_tail hp hq hf), List.nil_append]
  by_cases hne : d = []
  · refine silent_step (st' := .pathStart) (rest' := p ++ (q ++ f)) (url' := url) (by decide)
      (fun s i h => ⟨_, ?_, drop_behind h⟩) (silent_pathStart hp hq hf hu)
    rw [key s i h]
    subst hne
    rfl
  · refine silent_step (st' := .pathStart) (rest' := p ++ (q ++ f))
      (url' := { url with port := if isDefaultPort url.scheme (Spec.decimal d) then none else some (Spec.decimal d) }) (by decide)
      (fun s i h => ⟨_, ?_, drop_behind h⟩) (silent_pathStart hp hq hf hu)
    rw [key s i h]
    unfold portEnd
    dsimp only
    rw [if_neg (by simpa using hne), port_value env hdig hne hl]
    dsimp only
    rw [Int.ofNat_eq_natCast, Int.toNat_natCast, if_neg (by have := hd.2; omega)]
    rfl

/-! ### Host -/

theorem hostLoop_outside (env : Env) (t : Str) {h : Str} (hh : ∀ c ∈ h, c ∉ u!"/?#\\:@[]") : ∀ (i : Nat) (buf : Str) (url : Rec),
    hostLoop env none (h ++ t) i buf false url = hostLoop env none t (i + h.length) (buf ++ h) false url := by
  induction h with
  | nil => intro i buf url; simp
  | cons c h ih =>
    intro i buf url
    have hc := hh c (by simp)
    rw [List.cons_append]
    conv => lhs; unfold hostLoop
    simp only [List.mem_cons, List.not_mem_nil, or_false, not_or] at hc
    rw [if_neg (by simp [hc]), if_neg (by simp [isAuthorityEnd, hc]), if_neg hc.2.2.2.2.2.2.1, if_neg hc.2.2.2.2.2.2.2,
      ih (fun x hx => hh x (by simp [hx])), List.append_assoc, List.length_cons]
    congr 1
    omega

theorem hostLoop_within (env : Env) (t : Str) {h : Str} (hh : ∀ c ∈ h, c ∉ u!"/?#\\@[]") : ∀ (i : Nat) (buf : Str) (url : Rec),
    hostLoop env none (h ++ t) i buf true url = hostLoop env none t (i + h.length) (buf ++ h) true url := by
  induction h with
  | nil => intro i buf url; simp
  | cons c h ih =>
    intro i buf url
    have hc := hh c (by simp)
    rw [List.cons_append]
    conv => lhs; unfold hostLoop
    simp only [List.mem_cons, List.not_mem_nil, or_false, not_or] at hc
    rw [if_neg (by simp [hc]), if_neg (by simp [isAuthorityEnd, hc]), if_neg hc.2.2.2.2.2.1, if_neg hc.2.2.2.2.2.2,
      ih (fun x hx => hh x (by simp [hx])), List.append_assoc, List.length_cons]
    congr 1
    omega

theorem hostLoop_fine (env : Env) (t : Str) {m : Bool} {h : Str} (hh : FineHost env m h) (i : Nat) (url : Rec) :
    hostLoop env none (h ++ t) i [] false url = hostLoop env none t (i + h.length) h false url := by
  rcases hh.1 with hh | ⟨a, rfl, ha⟩
  · rw [hostLoop_outside env t hh, List.nil_append]
  · have e1 : u!"[" ++ a ++ u!"]" ++ t = c!"[" :: (a ++ c!"]" :: t) := by simp
    rw [e1]
    conv => lhs; unfold hostLoop
    rw [if_neg (by simp), if_neg (by simp [isAuthorityEnd]), if_pos rfl, hostLoop_within env _ ha]
    conv => lhs; unfold hostLoop
    rw [if_neg (by simp), if_neg (by simp [isAuthorityEnd]), if_neg (by decide), if_pos rfl]
    have e2 : i + 1 + a.length + 1 = i + (u!"[" ++ a ++ u!"]").length := by simp; omega
    rw [e2]
    simp

theorem silent_host {m : Bool} {h port p q f : Str} (hh : FineHost env m h) (hpo : PortPart port) (hp : PathPart p) (hq : QueryPart q)
    (hf : FragmentPart f) (hl : env.maxStrDigits = 0 ∨ port.length ≤ env.maxStrDigits) {url : Rec} {segs : List Str}
    (hu : url.path = .list segs) (hm : m = !url.isSpecial) (hne : h = [] → m = true ∧ port = []) :
    Silent env e base .host (h ++ (port ++ (p ++ (q ++ f)))) url url.scheme := by
  obtain ⟨x, hx⟩ := hh.2
  subst hm
  have key : ∀ (s : Str) i, s.drop i = h ++ (port ++ (p ++ (q ++ f))) →
      step env e s base none .host i url = hostLoop env none (port ++ (p ++ (q ++ f))) (i + h.length) h false url := by
    intro s i hd
    show parseHost env s i url none = _
    unfold parseHost
    rw [if_neg (by simp), hd, hostLoop_fine env _ hh]
  rcases hpo with rfl | ⟨d, rfl, hd⟩
  · refine silent_step (st' := .pathStart) (rest' := p ++ (q ++ f)) (url' := { url with host := some x }) (by decide)
      (fun s i hd => ⟨i + h.length, ?_, drop_behind hd⟩) (silent_pathStart hp hq hf hu)
    rw [key s i hd, List.nil_append]
    have hend : hostLoop env none (p ++ (q ++ f)) (i + h.length) h false url = hostEnd env false (i + h.length) h url := by
      have hs := stops_tail hp hq hf
      cases ht : p ++ (q ++ f) with
      | nil => rfl
      | cons c t =>
        rw [ht] at hs
        unfold hostLoop
        rw [if_neg, if_pos (hs.end _)]; · rfl
        rcases hs c rfl with rfl | rfl | rfl <;> simp
    rw [hend]
    unfold hostEnd
    rw [if_neg, if_neg (by simp), hx]
    · rfl
    · simp only [Bool.and_eq_true, List.isEmpty_iff]
      rintro ⟨h1, h2⟩
      have := (hne h2).1
      rw [h1] at this
      cases this
  · refine silent_step (st' := .port) (rest' := d ++ (p ++ (q ++ f))) (url' := { url with host := some x }) (by decide)
      (fun s i hd => ⟨i + h.length + 1, ?_, drop_after (drop_behind hd)⟩) (silent_port hd ?_ hp hq hf hu)
    · rw [key s i hd, List.cons_append]
      unfold hostLoop
      have h0 : ¬ h.isEmpty = true := by
        rw [List.isEmpty_iff]
        intro h0
        have := (hne h0).2
        cases this
      rw [if_pos (by simp), if_neg h0, if_neg (by simp), hx]
      rfl
    · rcases hl with h | h
      · exact .inl h
      · rw [List.length_cons] at h; exact .inr (by omega)

/-! ### Authority -/

theorem fine_chars {m : Bool} {h : Str} (hh : FineHost env m h) : ∀ c ∈ h, c ∉ u!"/?#\\@" := by
  intro c hc
  rcases hh.1 with hh | ⟨a, rfl, ha⟩
  · have := hh c hc
    simp only [List.mem_cons, List.not_mem_nil, or_false, not_or] at this ⊢
    exact ⟨this.1, this.2.1, this.2.2.1, this.2.2.2.1, this.2.2.2.2.2.1⟩
  · simp only [List.mem_append, List.mem_cons, List.not_mem_nil, or_false] at hc
    rcases hc with (rfl | hc) | rfl
    · decide
    · have := ha c hc
      simp only [List.mem_cons, List.not_mem_nil, or_false, not_or] at this ⊢
      exact ⟨this.1, this.2.1, this.2.2.1, this.2.2.2.1, this.2.2.2.2.1⟩
    · decide

theorem portPart_chars {port : Str} (h : PortPart port) : ∀ c ∈ port, c ∉ u!"/?#\\@" := by
  rcases h with rfl | ⟨d, rfl, hd⟩
  · intro c hc; cases hc
  · intro c hc
    rcases List.mem_cons.1 hc with rfl | hc
    · decide
    · have := hd.1 c hc
      unfold Spec.Digit at this
      simp only [List.mem_cons, List.not_mem_nil, or_false, not_or]
      omega

theorem authorityLoop_plain (sp : Bool) (t : Str) {h : Str} (hh : ∀ c ∈ h, c ∉ u!"/?#\\@") : ∀ (i : Nat) (buf : Str) (url : Rec),
    authorityLoop sp (h ++ t) i buf false false url [] = authorityLoop sp t (i + h.length) (buf ++ h) false false url [] := by
  induction h with
  | nil => intro i buf url; simp
  | cons c h ih =>
    intro i buf url
    have hc := hh c (by simp)
    rw [List.cons_append]
    conv => lhs; unfold authorityLoop
    simp only [List.mem_cons, List.not_mem_nil, or_false, not_or] at hc
    rw [if_neg hc.2.2.2.2, if_neg (by simp [isAuthorityEnd, hc]),
      ih (fun x hx => hh x (by simp [hx])), List.append_assoc, List.length_cons]
    congr 1
    omega

theorem silent_authority {m : Bool} {h port p q f : Str} (hh : FineHost env m h) (hpo : PortPart port) (hp : PathPart p) (hq : QueryPart q)
    (hf : FragmentPart f) (hl : env.maxStrDigits = 0 ∨ port.length ≤ env.maxStrDigits) {url : Rec} {segs : List Str}
    (hu : url.path = .list segs) (hm : m = !url.isSpecial) (hne : h = [] → m = true ∧ port = []) :
    Silent env e base .authority (h ++ (port ++ (p ++ (q ++ f)))) url url.scheme := by
  refine silent_step (st' := .host) (rest' := h ++ (port ++ (p ++ (q ++ f)))) (url' := url) (by decide)
    (fun s i hd => ⟨i, ?_, hd⟩) (silent_host hh hpo hp hq hf hl hu hm hne)
  show authorityLoop url.isSpecial (s.drop i) i [] false false url [] = _
  rw [hd, ← List.append_assoc, authorityLoop_plain _ _ (h := h ++ port), List.nil_append]
  · have hend : ∀ j buf, authorityLoop url.isSpecial (p ++ (q ++ f)) j buf false false url [] = authorityEnd (j + 1) buf false url [] := by
      intro j buf
      have hs := stops_tail hp hq hf
      cases ht : p ++ (q ++ f) with
      | nil => rfl
      | cons c t =>
        rw [ht] at hs
        unfold authorityLoop
        rw [if_neg, if_pos (hs.end _)]
        rcases hs c rfl with rfl | rfl | rfl <;> simp
    rw [hend]
    unfold authorityEnd
    rw [if_neg (by simp)]
    congr 1
    omega
  · intro c hc
    rcases List.mem_append.1 hc with h | h
    · exact fine_chars hh c h
    · exact portPart_chars hpo c h

theorem silent_ignoreSlashes {h port p q f : Str} (hh : FineHost env false h) (hpo : PortPart port) (hp : PathPart p) (hq : QueryPart q)
    (hf : FragmentPart f) (hl : env.maxStrDigits = 0 ∨ port.length ≤ env.maxStrDigits) {url : Rec} {segs : List Str}
    (hu : url.path = .list segs) (hm : url.isSpecial = true) (hne : h ≠ []) :
    Silent env e base .specialAuthorityIgnoreSlashes (h ++ (port ++ (p ++ (q ++ f)))) url url.scheme := by
  refine silent_step (st' := .authority) (rest' := h ++ (port ++ (p ++ (q ++ f)))) (url' := url) (by decide)
    (fun s i hd => ⟨i, ?_, hd⟩) (silent_authority hh hpo hp hq hf hl hu (by rw [hm]; rfl) (fun h => absurd h hne))
  show parseSpecialAuthorityIgnoreSlashes s i url = _
  unfold parseSpecialAuthorityIgnoreSlashes
  rw [hd]
  cases h with
  | nil => exact absurd rfl hne
  | cons c h =>
    have := fine_chars hh c (by simp)
    simp only [List.mem_cons, List.not_mem_nil, or_false, not_or] at this
    rw [List.cons_append]
    unfold ignoreSlashes
    rw [if_neg (by simp [this])]

/-! ### File -/

theorem fileHostLoop_plain (env : Env) (t : Str) {h : Str} (hh : ∀ c ∈ h, c ∉ u!"/?#\\@") : ∀ (i : Nat) (buf : Str) (url : Rec),
    fileHostLoop env false (h ++ t) i buf url = fileHostLoop env false t (i + h.length) (buf ++ h) url := by
  induction h with
  | nil => intro i buf url; simp
  | cons c h ih =>
    intro i buf url
    have hc := hh c (by simp)
    rw [List.cons_append]
    conv => lhs; unfold fileHostLoop
    simp only [List.mem_cons, List.not_mem_nil, or_false, not_or] at hc
    rw [if_neg (by simp [hc]), ih (fun x hx => hh x (by simp [hx])), List.append_assoc, List.length_cons]
    congr 1
    omega

theorem silent_fileHost {h p q f : Str} (hh : h = [] ∨ (FineHost env false h ∧ c!"|" ∉ h)) (hp : PathPart p) (hq : QueryPart q)
    (hf : FragmentPart f) {url : Rec} {segs : List Str} (hu : url.path = .list segs) (hm : url.isSpecial = true) :
    Silent env e base .fileHost (h ++ (p ++ (q ++ f))) url url.scheme := by
  have hch : ∀ c ∈ h, c ∉ u!"/?#\\@" := by
    rcases hh with rfl | hh
    · intro c hc; cases hc
    · exact fine_chars hh.1
  have hend : ∀ (s : Str) i, s.drop i = h ++ (p ++ (q ++ f)) → step env e s base none .fileHost i url = fileHostEnd env false (i + h.length) h url := by
    intro s i hd
    show fileHostLoop env false (s.drop i) i [] url = _
    rw [hd, fileHostLoop_plain env _ hch, List.nil_append]
    have hs := stops_tail hp hq hf
    cases ht : p ++ (q ++ f) with
    | nil => rfl
    | cons c t =>
      rw [ht] at hs
      unfold fileHostLoop
      rw [if_pos]
      rcases hs c rfl with rfl | rfl | rfl <;> simp
  rcases hh with rfl | ⟨hh, hbar⟩
  · refine silent_step (st' := .pathStart) (rest' := p ++ (q ++ f)) (url' := { url with host := some (.str []) }) (by decide)
      (fun s i hd => ⟨i, ?_, hd⟩) (silent_pathStart hp hq hf hu)
    rw [hend s i hd]
    rfl
  · by_cases hne : h = []
    · subst hne
      refine silent_step (st' := .pathStart) (rest' := p ++ (q ++ f)) (url' := { url with host := some (.str []) }) (by decide)
        (fun s i hd => ⟨i, ?_, hd⟩) (silent_pathStart hp hq hf hu)
      rw [hend s i hd]
      rfl
    · obtain ⟨x, hx⟩ := hh.2
      refine silent_step (st' := .pathStart) (rest' := p ++ (q ++ f))
        (url' := { url with host := some (if x = .str u!"localhost" then .str [] else x) }) (by decide)
        (fun s i hd => ⟨i + h.length, ?_, drop_behind hd⟩) (silent_pathStart hp hq hf hu)
      rw [hend s i hd]
      unfold fileHostEnd
      rw [if_neg, if_neg (by simpa using hne), hm, show (!true) = false from rfl, hx]
      · rfl
      · simp only [Bool.not_false, Bool.true_and]
        intro hw
        obtain ⟨a, b, rfl, ha, hb⟩ := drive_shape hw
        rcases hb with rfl | rfl
        · rcases hh.1 with h | ⟨t, ht, -⟩
          · exact absurd (h 58 (by simp)) (by decide)
          · have := congrArg List.head? ht
            simp at this
            subst this
            revert ha; decide
        · simp at hbar

theorem silent_fileSlash_host {h p q f : Str} (hh : h = [] ∨ (FineHost env false h ∧ c!"|" ∉ h)) (hp : PathPart p) (hq : QueryPart q)
    (hf : FragmentPart f) {url : Rec} {segs : List Str} (hu : url.path = .list segs) (hm : url.isSpecial = true) :
    Silent env e base .fileSlash (c!"/" :: (h ++ (p ++ (q ++ f)))) url url.scheme := by
  refine silent_step (st' := .fileHost) (rest' := h ++ (p ++ (q ++ f))) (url' := url) (by decide)
    (fun s i hd => ⟨i + 1, ?_, drop_after hd⟩) (silent_fileHost hh hp hq hf hu hm)
  show parseFileSlash s i base url = _
  unfold parseFileSlash
  dsimp only
  rw [hd]
  dsimp only
  rw [if_pos rfl]

theorem silent_fileSlash_path {p q f : Str} (hp : PathRelative p) (hq : QueryPart q)
    (hf : FragmentPart f) {url : Rec} {segs : List Str} (hu : url.path = .list segs) :
    Silent env e base .fileSlash (p ++ (q ++ f)) url url.scheme := by
  have hsil : ∀ (U : Rec) (l : List Str), U.path = .list l → Silent env e base .path (p ++ (q ++ f)) U U.scheme :=
    fun U l h => silent_path (pathRelative_units hp) hq hf h
  have hchars := pathRelative_chars hp
  have key : ∃ (U : Rec) (l : List Str), U.path = .list l ∧ U.scheme = url.scheme ∧ ∀ (s : Str) (i : Nat), s.drop i = p ++ (q ++ f) →
      parseFileSlash s i base url = .to .path i U [] := by
    have start : ∀ (s : Str) (i : Nat), s.drop i = p ++ (q ++ f) → ∀ c t, s.drop i = c :: t → c ≠ c!"/" ∧ c ≠ c!"\\" := by
      intro s i hd c t hc
      rw [hd] at hc
      cases p with
      | nil =>
        rcases hq with rfl | ⟨q, rfl, hq⟩
        · rcases hf with rfl | ⟨f, rfl, hf⟩
          · cases hc
          · cases hc; decide
        · cases hc; decide
      | cons x p =>
        cases hc
        refine ⟨fun h => hp.2 (by rw [h]; rfl), fun h => hchars.2.2 (by rw [h]; simp)⟩
    -- the part that does not look at the slashes
    have other : ∃ (U : Rec) (l : List Str), U.path = .list l ∧ U.scheme = url.scheme ∧ ∀ (i : Nat), 
        (match base with
          | none => Out.to .path i url
          | some b =>
            if b.scheme = u!"file" then
              let url := { url with host := b.host }
              match b.path with
              | .list (p0 :: _) =>
                if !startsWithWindowsDriveLetter (p ++ (q ++ f)) && isNormalizedWindowsDriveLetter p0 then
                  match url.path with
                  | .list p => .to .path i { url with path := .list (p ++ [p0]) }
                  | .opaque _ => .fail .assertionError url
                else .to .path i url
              | _ => .to .path i url
            else .to .path i url) = .to .path i U [] := by
      cases base with
      | none => exact ⟨url, segs, hu, rfl, fun i => rfl⟩
      | some b =>
        dsimp only
        by_cases hb : b.scheme = u!"file"
        · simp only [if_pos hb]
          cases hbp : b.path with
          | «opaque» t => exact ⟨{ url with host := b.host }, segs, hu, rfl, fun i => rfl⟩
          | list l =>
            cases l with
            | nil => exact ⟨{ url with host := b.host }, segs, hu, rfl, fun i => rfl⟩
            | cons p0 l =>
              dsimp only
              generalize (!startsWithWindowsDriveLetter (p ++ (q ++ f)) && isNormalizedWindowsDriveLetter p0) = w
              cases w with
              | false => exact ⟨{ url with host := b.host }, segs, hu, rfl, fun i => rfl⟩
              | true =>
                rw [hu]
                exact ⟨{ url with host := b.host, path := .list (segs ++ [p0]) }, segs ++ [p0], rfl, rfl, fun i => rfl⟩
        · simp only [if_neg hb]
          exact ⟨url, segs, hu, rfl, fun i => rfl⟩
    obtain ⟨U, l, h1, h2, h3⟩ := other
    refine ⟨U, l, h1, h2, fun s i hd => ?_⟩
    rw [← h3 i]
    unfold parseFileSlash
    dsimp only
    have := start s i hd
    rw [hd] at this ⊢
    cases hpq : p ++ (q ++ f) with
    | nil => rfl
    | cons c t =>
      obtain ⟨c1, c2⟩ := this c t hpq
      dsimp only
      rw [if_neg c1, if_neg c2]
      rfl
  obtain ⟨U, l, h1, h2, h3⟩ := key
  rw [← h2]
  exact silent_step (st' := .path) (rest' := p ++ (q ++ f)) (url' := U) (by decide) (fun s i hd => ⟨i, h3 s i hd, hd⟩) (hsil U l h1)

end

end Urlstd
