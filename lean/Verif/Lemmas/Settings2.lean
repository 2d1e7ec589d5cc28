/-
URL parsing under two settings of the interpreter, on the rules of C83.
-/
import Verif.Lemmas.Settings
import Verif.Lemmas.Denote
import Verif.Lemmas.Parsed

namespace Urlstd

open Spec (SameLibrary Within IsStr Denotes FileText Relative Parts portOf)

variable {env env' : Env}

theorem portOf_same {sc : Str} {p : Option Str} {n : Option Nat} (h : portOf env sc p = .ok n) :
    portOf env' sc p = .ok n ∨ portOf env' sc p = .error .valueError := by
  unfold portOf at h ⊢
  split
  · exact .inl h
  · dsimp only at h
    split at h
    · cases h
    · rename_i g1
      rw [if_neg g1]
      split at h
      · rename_i g2; rw [if_pos g2]; exact .inl h
      · rename_i g2; rw [if_neg g2]
        split at h
        · cases h
        · split
          · exact .inr rfl
          · exact .inl h

theorem portOf_short {sc : Str} {p : Option Str} (h : ∀ x, p = some x → Within env x.length ∧ Within env' x.length) :
    portOf env sc p = portOf env' sc p := by
  unfold portOf
  split
  · rfl
  · rename_i x
    obtain ⟨h1, h2⟩ := h x rfl
    have e1 : ¬ (env.maxStrDigits ≠ 0 ∧ env.maxStrDigits < x.length) := by unfold Within at h1; omega
    have e2 : ¬ (env'.maxStrDigits ≠ 0 ∧ env'.maxStrDigits < x.length) := by unfold Within at h2; omega
    rw [if_neg e1, if_neg e2]

/-- what the second interpreter makes of a text that is `u` for the first -/
def Otherwise (env env' : Env) (u : Rec) (y : Except Err Rec) : Prop :=
  y = .ok u ∨ y = .error .valueError ∨
  (Spec.isSpecial u.scheme = true ∧ (
    (y = .error .ipv4Parse ∧ ((∃ n, u.host = some (.ipv4 n) ∧ env'.maxStrDigits ≠ 0) ∨
      ∃ a, u.host = some (.str a) ∧ isEndsInANumber env' a = true ∧ isEndsInANumber env a = false)) ∨
    (∃ a n, u.host = some (.ipv4 n) ∧ y = .ok { u with host := some (.str a) } ∧
      isEndsInANumber env a = true ∧ isEndsInANumber env' a = false) ∨
    (∃ a n, u.host = some (.str a) ∧ y = .ok { u with host := some (.ipv4 n) } ∧
      isEndsInANumber env' a = true ∧ isEndsInANumber env a = false)))

theorem parts_same (h : SameLibrary env env') {p : Parts} {sc : Str} {u : Rec} (hu : p.url env sc = .ok u) :
    Otherwise env env' u (p.url env' sc) := by
  unfold Parts.url at hu ⊢
  split at hu
  · cases hu
  · rename_i g
    rw [if_neg g]
    cases hh : (hostParse env p.host (!Spec.isSpecial sc)).res with
    | error e => rw [hh] at hu; cases hu
    | ok v =>
      cases hp : portOf env sc p.port with
      | error e => rw [hh, hp] at hu; cases hu
      | ok n =>
        rw [hh, hp] at hu
        cases hu
        unfold Otherwise
        dsimp only
        simp only [Option.some.injEq]
        rcases hostParse_same h hh with e | e | ⟨hm, e, hc⟩ | ⟨hm, a, k, rfl, e, h1, h2⟩ | ⟨hm, a, k, rfl, e, h1, h2⟩
        · rw [e]
          rcases portOf_same (env' := env') hp with e' | e'
          · rw [e']; exact .inl rfl
          · rw [e']; exact .inr (.inl rfl)
        · rw [e]; exact .inr (.inl rfl)
        · rw [e]
          exact .inr (.inr ⟨by simpa using hm, .inl ⟨rfl, hc⟩⟩)
        · rw [e]
          rcases portOf_same (env' := env') hp with e' | e'
          · rw [e']
            exact .inr (.inr ⟨by simpa using hm, .inr (.inl ⟨a, k, rfl, rfl, h1, h2⟩)⟩)
          · rw [e']; exact .inr (.inl rfl)
        · rw [e]
          rcases portOf_same (env' := env') hp with e' | e'
          · rw [e']
            exact .inr (.inr ⟨by simpa using hm, .inr (.inr ⟨a, k, rfl, rfl, h1, h2⟩)⟩)
          · rw [e']; exact .inr (.inl rfl)

theorem localhost_ends (env : Env) : isEndsInANumber env u!"localhost" = false := rfl

theorem fileText_same (h : SameLibrary env env') {base : Option Rec} {r : Str} {u : Rec} (hu : FileText env base r (.ok u)) :
    ∃ y, FileText env' base r y ∧ Otherwise env env' u y := by
  generalize hx : (Except.ok u : Except Err Rec) = x at hu
  cases hu with
  | noHost s1 s2 path q f h1 h2 hp ok => cases hx; exact ⟨_, .noHost s1 s2 path q f h1 h2 hp ok, .inl rfl⟩
  | host s1 s2 host path q f v h1 h2 hne hh hd hv hp ok =>
    cases hx
    have hloc : ∀ {env : Env} {a : Str}, isEndsInANumber env a = true → a ≠ u!"localhost" := by
      rintro env a h rfl
      rw [localhost_ends] at h; cases h
    rcases hostParse_same h hv with e | e | ⟨-, e, hc⟩ | ⟨-, a, k, rfl, e, g1, g2⟩ | ⟨-, a, k, rfl, e, g1, g2⟩
    · exact ⟨_, .host s1 s2 host path q f v h1 h2 hne hh hd e hp ok, .inl rfl⟩
    · exact ⟨_, .badHost s1 s2 host path q f _ h1 h2 hne hh hd e hp ok, .inr (.inl rfl)⟩
    · refine ⟨_, .badHost s1 s2 host path q f _ h1 h2 hne hh hd e hp ok, .inr (.inr ⟨rfl, .inl ⟨rfl, ?_⟩⟩)⟩
      rcases hc with ⟨n, rfl, h0⟩ | ⟨a, rfl, g1, g2⟩
      · exact .inl ⟨n, rfl, h0⟩
      · have := hloc g1
        exact .inr ⟨a, by simp [Spec.fileURL, this], g1, g2⟩
    · refine ⟨_, .host s1 s2 host path q f _ h1 h2 hne hh hd e hp ok, .inr (.inr ⟨rfl, .inr (.inl ⟨a, k, rfl, ?_, g1, g2⟩)⟩)⟩
      have := hloc g1
      simp [Spec.fileURL, this]
    · have := hloc g1
      refine ⟨_, .host s1 s2 host path q f _ h1 h2 hne hh hd e hp ok,
        .inr (.inr ⟨rfl, .inr (.inr ⟨a, k, ?_, ?_, g1, g2⟩)⟩)⟩
      · simp [Spec.fileURL, this]
      · simp [Spec.fileURL]
  | badHost => cases hx
  | drive s1 s2 host path q f h1 h2 hd hp ok => cases hx; exact ⟨_, .drive s1 s2 host path q f h1 h2 hd hp ok, .inl rfl⟩
  | rooted s t q f hs ht ok => cases hx; exact ⟨_, .rooted s t q f hs ht ok, .inl rfl⟩
  | plain t q f hb ht ok => cases hx; exact ⟨_, .plain t q f hb ht ok, .inl rfl⟩
  | path b p t q f hbase hb hp hne ht ok => cases hx; exact ⟨_, .path b p t q f hbase hb hp hne ht ok, .inl rfl⟩
  | same b q f hbase hb hne ok => cases hx; exact ⟨_, .same b q f hbase hb hne ok, .inl rfl⟩
  | empty b p hbase hb hp => cases hx; exact ⟨_, .empty b p hbase hb hp, .inl rfl⟩

theorem relative_same (h : SameLibrary env env') {b : Rec} {r : Str} {u : Rec} (hu : Relative env b r (.ok u)) :
    ∃ y, Relative env' b r y ∧ Otherwise env env' u y := by
  generalize hx : (Except.ok u : Except Err Rec) = x at hu
  cases hu with
  | same q f ok => cases hx; exact ⟨_, .same q f ok, .inl rfl⟩
  | path p t q f hp hne ht ok => cases hx; exact ⟨_, .path p t q f hp hne ht ok, .inl rfl⟩
  | rooted s t q f hs ht ok => cases hx; exact ⟨_, .rooted s t q f hs ht ok, .inl rfl⟩
  | authority s1 s2 sl p h1 h2 hsl ok => exact ⟨_, .authority s1 s2 sl p h1 h2 hsl ok, parts_same h hx.symm⟩

theorem denotes_same (h : SameLibrary env env') {base : Option Rec} {r : Str} {u : Rec} (hu : Denotes env base r (.ok u)) :
    ∃ y, Denotes env' base r y ∧ Otherwise env env' u y := by
  generalize hx : (Except.ok u : Except Err Rec) = x at hu
  cases hu with
  | file sc r x hsc hf hr =>
    subst hx
    obtain ⟨y, h1, h2⟩ := fileText_same h hr
    exact ⟨y, .file sc r y hsc hf h1, h2⟩
  | special sc sl p hsc hs hf hb hsl ok => exact ⟨_, .special sc sl p hsc hs hf hb hsl ok, parts_same h hx.symm⟩
  | specialSlashes sc sl p hsc hs hf hsl ok => exact ⟨_, .specialSlashes sc sl p hsc hs hf hsl ok, parts_same h hx.symm⟩
  | sameScheme sc r b x hsc hs hf hbase hb h2 hr =>
    subst hx
    obtain ⟨y, h1, h3⟩ := relative_same h hr
    exact ⟨y, .sameScheme sc r b y hsc hs hf hbase hb h2 h1, h3⟩
  | authority sc p hsc hs ok => exact ⟨_, .authority sc p hsc hs ok, parts_same h hx.symm⟩
  | rooted sc t q f hsc hs ht ok => cases hx; exact ⟨_, .rooted sc t q f hsc hs ht ok, .inl rfl⟩
  | «opaque» sc t q f hsc hs ht ok => cases hx; exact ⟨_, .opaque sc t q f hsc hs ht ok, .inl rfl⟩
  | noBase => cases hx
  | opaqueFragment f b t hbase hp => cases hx; exact ⟨_, .opaqueFragment f b t hbase hp, .inl rfl⟩
  | opaqueOther => cases hx
  | fileBase r b p x hr hbase hp hf hrr =>
    subst hx
    obtain ⟨y, h1, h2⟩ := fileText_same h hrr
    exact ⟨y, .fileBase r b p y hr hbase hp hf h1, h2⟩
  | reference r b p x hr hbase hp hf hrr =>
    subst hx
    obtain ⟨y, h1, h2⟩ := relative_same h hrr
    exact ⟨y, .reference r b p y hr hbase hp hf h1, h2⟩

/-! ### Inputs within the limit -/

/-- on this text, the two interpreters agree about hosts and ports -/
structure SettingsAgree (env env' : Env) (r : Str) : Prop where
  host : ∀ t m, t <:+: r → (hostParse env t m).res = (hostParse env' t m).res
  port : ∀ t : Str, t <:+: r → Within env t.length ∧ Within env' t.length

theorem SettingsAgree.infix {r t : Str} (h : SettingsAgree env env' r) (ht : t <:+: r) : SettingsAgree env env' t :=
  ⟨fun x m hx => h.host x m (hx.trans ht), fun x hx => h.port x (hx.trans ht)⟩

theorem parts_short {p : Parts} (h : SettingsAgree env env' p.text) (sc : Str) : p.url env sc = p.url env' sc := by
  have hh : p.host <:+: p.text := ⟨p.userinfo.elim [] fun x => x ++ u!"@", (p.port.elim [] fun x => u!":" ++ x) ++ p.path ++
    (p.query.elim [] fun x => u!"?" ++ x) ++ (p.fragment.elim [] fun x => u!"#" ++ x), by simp [Parts.text]⟩
  have hp : ∀ x, p.port = some x → x <:+: p.text := fun x hx =>
    ⟨(p.userinfo.elim [] fun x => x ++ u!"@") ++ p.host ++ u!":", p.path ++
    (p.query.elim [] fun x => u!"?" ++ x) ++ (p.fragment.elim [] fun x => u!"#" ++ x), by simp [Parts.text, hx]⟩
  unfold Parts.url
  rw [h.host _ _ hh, portOf_short fun x hx => h.port x (hp x hx)]

theorem suffix_infix (a b : Str) : b <:+: a ++ b := ⟨a, [], by simp⟩

theorem fileText_short {base : Option Rec} {r : Str} {x : Except Err Rec} (h : SettingsAgree env env' r) (hx : FileText env base r x) :
    FileText env' base r x := by
  have hi : ∀ (s1 s2 : Nat) (a b : Str), a <:+: s1 :: s2 :: (a ++ b) := fun s1 s2 a b => ⟨[s1, s2], b, by simp⟩
  cases hx with
  | noHost s1 s2 path q f h1 h2 hp ok => exact .noHost s1 s2 path q f h1 h2 hp ok
  | host s1 s2 host path q f v h1 h2 hne hh hd hv hp ok =>
    rw [h.host host false (hi ..)] at hv
    exact .host s1 s2 host path q f v h1 h2 hne hh hd hv hp ok
  | badHost s1 s2 host path q f v h1 h2 hne hh hd hv hp ok =>
    rw [h.host host false (hi ..)] at hv
    exact .badHost s1 s2 host path q f v h1 h2 hne hh hd hv hp ok
  | drive s1 s2 host path q f h1 h2 hd hp ok => exact .drive s1 s2 host path q f h1 h2 hd hp ok
  | rooted s t q f hs ht ok => exact .rooted s t q f hs ht ok
  | plain t q f hb ht ok => exact .plain t q f hb ht ok
  | path b p t q f hbase hb hp hne ht ok => exact .path b p t q f hbase hb hp hne ht ok
  | same b q f hbase hb hne ok => exact .same b q f hbase hb hne ok
  | empty b p hbase hb hp => exact .empty b p hbase hb hp

theorem relative_short {b : Rec} {r : Str} {x : Except Err Rec} (h : SettingsAgree env env' r) (hx : Relative env b r x) :
    Relative env' b r x := by
  cases hx with
  | same q f ok => exact .same q f ok
  | path p t q f hp hne ht ok => exact .path p t q f hp hne ht ok
  | rooted s t q f hs ht ok => exact .rooted s t q f hs ht ok
  | authority s1 s2 sl p h1 h2 hsl ok =>
    rw [parts_short (h.infix ⟨s1 :: s2 :: sl, [], by simp⟩)]
    exact .authority s1 s2 sl p h1 h2 hsl ok

theorem denotes_short {base : Option Rec} {r : Str} {x : Except Err Rec} (h : SettingsAgree env env' r) (hx : Denotes env base r x) :
    Denotes env' base r x := by
  cases hx with
  | file sc r _ hsc hf hr => exact .file sc r _ hsc hf (fileText_short (h.infix (suffix_infix ..)) hr)
  | special sc sl p hsc hs hf hb hsl ok =>
    rw [parts_short (h.infix ⟨sc ++ u!":" ++ sl, [], by simp⟩)]
    exact .special sc sl p hsc hs hf hb hsl ok
  | specialSlashes sc sl p hsc hs hf hsl ok =>
    rw [parts_short (h.infix ⟨sc ++ u!"://" ++ sl, [], by simp⟩)]
    exact .specialSlashes sc sl p hsc hs hf hsl ok
  | sameScheme sc r b x hsc hs hf hbase hb h2 hr =>
    exact .sameScheme sc r b x hsc hs hf hbase hb h2 (relative_short (h.infix (suffix_infix ..)) hr)
  | authority sc p hsc hs ok =>
    rw [parts_short (h.infix (suffix_infix ..))]
    exact .authority sc p hsc hs ok
  | rooted sc t q f hsc hs ht ok => exact .rooted sc t q f hsc hs ht ok
  | «opaque» sc t q f hsc hs ht ok => exact .opaque sc t q f hsc hs ht ok
  | noBase r hr hb => exact .noBase r hr hb
  | opaqueFragment f b t hbase hp => exact .opaqueFragment f b t hbase hp
  | opaqueOther r b t hr hbase hp hh => exact .opaqueOther r b t hr hbase hp hh
  | fileBase r b p x hr hbase hp hf hrr => exact .fileBase r b p x hr hbase hp hf (fileText_short h hrr)
  | reference r b p x hr hbase hp hf hrr => exact .reference r b p x hr hbase hp hf (relative_short h hrr)

theorem agree_short (h : SameLibrary env env') {r : Str} (hr : IsStr r) (h1 : ¬ LongInput env r.length)
    (h2 : ¬ LongInput env' r.length) : SettingsAgree env env' r := by
  have w : ∀ {env : Env} {n k : Nat}, ¬ LongInput env n → k ≤ n → Within env k := by
    intro env n k hl hk
    by_cases h0 : env.maxStrDigits = 0
    · exact .inl h0
    · by_cases h1 : env.maxStrDigits < n
      · exact absurd ⟨h0, .inl h1⟩ hl
      · exact .inr (by omega)
  exact ⟨fun t m ht => hostParse_short h (fun c hc => hr c (ht.subset hc)) (fun hl => h1 (hl.mono ht.length_le))
    fun hl => h2 (hl.mono ht.length_le), fun t ht => ⟨w h1 ht.length_le, w h2 ht.length_le⟩⟩

/-- a domain does not end in a number -/
theorem hostSpec_ends (env : Env) : HostSpec env fun m h => m = false → ∀ a, h = .str a → isEndsInANumber env a = false := by
  intro host m h _ hh hm a ha
  subst ha hm
  cases hp : hostParse env host false with
  | mk r l =>
    rw [hp] at hh
    cases hh
    rcases hostParse_cases hp with ⟨-, h⟩ | ⟨t, b, -, -, -, -, h⟩ | ⟨s, -, -, h, -⟩ | ⟨b, l', -, -, -, -, -, ⟨-, n, l'', -, h⟩ | ⟨h1, h⟩⟩
    · cases h; rfl
    · cases h
    · cases h
    · cases h
    · cases h; exact h1

end Urlstd
