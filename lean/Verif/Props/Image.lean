/-
C113: which records the parser returns.
-/
import Verif.Lemmas.Image
import Verif.Props.Assign
import Verif.Props.Parsed
import Verif.Props.History

namespace Urlstd.Props

open Spec (IsStr IsURL WellMade NearlyBare Deviant Assigns Assignment)

private theorem canon_iff (u : Rec) : u.canon = u ↔ ∀ n, u.host = some (.ipv4 n) → n < 2 ^ 32 := by
  cases u with | mk a b c d e p q f =>
  unfold Rec.canon
  dsimp only
  constructor
  · intro h n hn
    have hd := congrArg Rec.host h
    dsimp only at hd
    rw [hn] at hd
    have : n % 2 ^ 32 = n := Host.ipv4.inj (Option.some.inj hd)
    rw [← this]
    exact Nat.mod_lt _ (by decide)
  · intro h
    cases d with
    | none => rfl
    | some x =>
      cases x with
      | ipv4 n =>
        have : n % 2 ^ 32 = n := Nat.mod_eq_of_lt (h n rfl)
        simp only [Option.map_some, Host.canon, this]
      | str s => rfl
      | ipv6 l => rfl

/-- C113. The records that the parser returns, for any text, base and encoding, are exactly those whose components meet the conditions
of `IsURL`; only the IPv4 addresses of more than 32 bits (C11) are not described by it. -/
theorem C113_image (env : Env) (he : EnvOK env) (hi : IdnaOK env) (u : Rec) :
    IsURL env u ↔ Parsed env u ∧ ∀ n, u.host = some (.ipv4 n) → n < 2 ^ 32 := by
  constructor
  · intro h
    have hw := wf_of_isURL hi h
    have hc := canon_of_isURL he hi h
    refine ⟨?_, (canon_iff u).1 hc⟩
    have hp := basicParse_serialize (base := none) (env := env) he hi hw
    rw [hc] at hp
    refine .alone (s := u.serialize) (e := .utf8) ?_ trivial hp
    intro c k
    have := hw.hrefOK.1 c k
    unfold Spec.Printable at this
    omega
  · rintro ⟨h, hc⟩
    exact isURL_of_wf he hi (h.wf (hostSpec_wf hi)) ((canon_iff u).2 hc)

/-- C113. Each of these records is what the parser makes of its serialization. -/
theorem C113_text (env : Env) (he : EnvOK env) (hi : IdnaOK env) (u : Rec) (h : IsURL env u) : (parseUrl env u.serialize).res = .ok u := by
  have hp := basicParse_serialize (base := none) (env := env) he hi (wf_of_isURL hi h)
  rw [canon_of_isURL he hi h] at hp
  exact hp

/-- C113. So these are the URLs that the constructor returns for a text alone: bases and other encodings add none. -/
theorem C113_alone (env : Env) (he : EnvOK env) (hi : IdnaOK env) (u : Rec) (h : Parsed env u) (hu : ∀ n, u.host = some (.ipv4 n) → n < 2 ^ 32) :
    ∃ s, IsStr s ∧ (parseUrl env s).res = .ok u := by
  have k := (C113_image env he hi u).2 ⟨h, hu⟩
  refine ⟨u.serialize, ?_, C113_text env he hi u k⟩
  intro c hc
  have := (wf_of_isURL hi k).hrefOK.1 c hc
  unfold Spec.Printable at this
  omega

/-- C113. What operations make of a URL meets the conditions too, unless and only unless it is one of the deviant URLs of C46. -/
theorem C113_history (env : Env) (he : EnvOK env) (hi : IdnaOK env) (o : URLObj) (h : Reached env o)
    (hu : ∀ n, o.url.host = some (.ipv4 n) → n < 2 ^ 32) : IsURL env.quiet o.url ↔ ¬ Deviant o.url := by
  constructor
  · intro k
    refine (C46_exact env he hi o h).1 ⟨⟨o.url, spOfQuery o.url.query⟩, ?_, rfl⟩
    have hp := C113_text env.quiet he hi.quiet o.url k
    unfold URLObj.new
    show (match (parseUrl env.quiet o.url.serialize).res with
      | .ok r => Except.ok (⟨r, spOfQuery r.query⟩ : URLObj)
      | .error e => .error e) = _
    rw [hp]
  · intro hd
    exact isURL_of_wf (env := env.quiet) he hi.quiet ((h.objOK (hostSpec_wf hi.quiet)).url.strict hd) ((canon_iff _).2 hu)

private theorem start {env : Env} (he : EnvOK env) (hi : IdnaOK env) {v : Rec} (hw : WF true (HostWF env.quiet) v) (hc : v.canon = v) :
    ∃ o, Reached env o ∧ o.url = v := by
  have hp := basicParse_serialize (base := none) (env := env.quiet) he hi.quiet hw
  rw [hc] at hp
  refine ⟨⟨v, spOfQuery v.query⟩, .new (s := v.serialize) ?_ ?_, rfl⟩
  · intro c k
    have := hw.hrefOK.1 c k
    unfold Spec.Printable at this
    omega
  · unfold URLObj.new
    show (match (parseUrl env.quiet v.serialize).res with
      | .ok r => Except.ok (⟨r, spOfQuery r.query⟩ : URLObj)
      | .error e => .error e) = _
    rw [show (parseUrl env.quiet v.serialize).res = .ok v from hp]

private theorem step {env : Env} {v w : Rec} {op : Op} {x : Except Err Unit} (h : ∃ o, Reached env o ∧ o.url = v) (hop : op.IsStr)
    (ha : Assignment op) (hw : Assigns env.quiet v op x w) : ∃ o, Reached env o ∧ o.url = w := by
  obtain ⟨o, h, rfl⟩ := h
  have := (C92_assign env o h op ha x ⟨w, Spec.paramsAfter o.params w op x⟩).2 ⟨hw, rfl⟩
  refine ⟨_, .op h hop, ?_⟩
  rw [this]

/-- C113. The records of all URL objects, whatever their past, are exactly those that meet the conditions `WellMade` on the components, and
have no credentials, and no port but 0, with an empty host or the scheme "file", and none of these without a host. Every one of them can
be reached with at most two assignments to a parsed URL. -/
theorem C113_reachable (env : Env) (he : EnvOK env) (hi : IdnaOK env) (u : Rec) :
    WellMade env.quiet u ∧ NearlyBare u ↔ (∃ o, Reached env o ∧ o.url = u) ∧ ∀ n, u.host = some (.ipv4 n) → n < 2 ^ 32 := by
  constructor
  · rintro ⟨hp, hb⟩
    have hw : WF false (HostWF env.quiet) u := wf_of_parts hi.quiet hp hb
    have hc : u.canon = u := canon_of_parts (env := env.quiet) he hi.quiet hp hb
    refine ⟨?_, (canon_iff u).1 hc⟩
    by_cases hd : Deviant u
    · have hne : u.host ≠ none := by
        intro hn
        rcases hd with ⟨a, -⟩ | ⟨a, -⟩
        · rw [hw.auth.null hn] at a
          cases a
        · exact (hw.auth.special (by unfold Rec.isSpecial; rw [a]; decide)).1 hn
      obtain ⟨h, hh⟩ := Option.ne_none_iff_exists'.1 hne
      have hlist : ∀ s, u.path ≠ .opaque s := by
        intro s hs
        rw [(hp.opaquePath s hs).1] at hh
        cases hh
      have hcan : h.canon = h := by
        have := congrArg Rec.host hc
        unfold Rec.canon at this
        dsimp only at this
        rw [hh] at this
        exact Option.some.inj this
      by_cases hf : u.scheme = u!"file"
      · have hl := hw.auth.loose (.inr (.inr hf))
        have hport : u.port = none ∨ u.port = some 0 := hl.2.2.imp id And.right
        have hocc : ∀ v : Rec, v.username = u.username → v.password = u.password → v.port = u.port → ¬ Spec.Occupied v := by
          intro v e1 e2 e3
          unfold Spec.Occupied
          rw [e1, e2, e3, hl.1, hl.2.1]
          rintro (k | k | ⟨p, k, k'⟩)
          · exact k rfl
          · exact k rfl
          · rcases hport with e | e
            · rw [e] at k
              cases k
            · rw [e] at k
              cases k
              exact k' rfl
        have hdef : ∀ p, u.port = some p → isDefaultPort u!"http" p = false := by
          intro p k
          rcases hport with e | e
          · rw [e] at k
            cases k
          · rw [e] at k
            cases k
            decide
        have hpf : Spec.portFor u!"file" u.port = u.port := by
          rcases hport with e | e <;> rw [e] <;> decide
        have first : ∀ g, HostWF env.quiet (!isSpecialScheme u.scheme) g → g ≠ .str [] → g.canon = g →
            ∃ o, Reached env o ∧ o.url = { u with host := some g } := by
          intro g hg h0 hgc
          have hv : WF true (HostWF env.quiet) { u with scheme := u!"http", host := some g } :=
            moved_wf hw hh ⟨c!"h", u!"ttp", rfl, by decide, by decide⟩ (by rw [hf]; decide) (by decide) hg h0 hdef
          have hs := start he hi hv (by unfold Rec.canon; dsimp only [Option.map_some]; rw [hgc])
          refine step (op := .protocol u!"file") hs (by show IsStr _; decide) (by show IsStr _; decide) (x := .ok ()) ?_
          have r := Assigns.protocol (env := env.quiet) (u := { u with scheme := u!"http", host := some g }) u!"file" u!"file" []
            ⟨c!"f", u!"ile", rfl, by decide, by decide⟩ (by decide)
            ⟨(by decide : Spec.isSpecial u!"http" = Spec.isSpecial (Spec.toLower u!"file")), fun k => hocc _ rfl rfl rfl k.2,
              fun k => absurd k.1 (by decide : u!"http" ≠ u!"file")⟩
          have e : ({ u with scheme := Spec.toLower u!"file", host := some g, port := Spec.portFor (Spec.toLower u!"file") u.port } : Rec) =
              { u with host := some g } := by
            rw [show Spec.toLower u!"file" = u!"file" by decide, hpf, ← hf]
          rw [← e]
          exact r
        have hu : ({ u with host := some h } : Rec) = u := by rw [← hh]
        by_cases h0 : h = .str []
        · have k := first (.ipv4 0) (by rw [hf]; rfl) (by intro e; cases e) rfl
          refine step (op := .hostname []) k (by show IsStr _; decide) (by show IsStr _; decide) (x := .ok ()) ?_
          have r := Spec.AssignsHost.fileNone (env := env.quiet) (u := { u with host := some (.ipv4 0) }) (port := false) [] hf
            (by intro c hc; cases hc)
          rw [h0] at hu
          have r : Spec.AssignsHost env.quiet { u with host := some (.ipv4 0) } false [] (.ok ()) { u with host := some (.str []) } := r
          rw [hu] at r
          exact .hostname [] _ _ hlist r
        · have k := first h (hw.auth.host h hh) h0 hcan
          rw [hu] at k
          exact k
      · rcases hd with ⟨a, b | b⟩ | ⟨a, -⟩
        · have hs : isSpecialScheme u.scheme = false := by
            cases k : isSpecialScheme u.scheme with
            | false => rfl
            | true => exact absurd ((hw.auth.special k).2 b) hf
          have hg : HostWF env.quiet (!isSpecialScheme u.scheme) (.str u!"h") := by
            rw [hs]
            exact .inr (.inl ⟨rfl, by decide, by decide⟩)
          have hl := hw.auth.loose (.inr (.inl b))
          have hv : WF true (HostWF env.quiet) { u with scheme := u.scheme, host := some (.str u!"h") } :=
            moved_wf hw hh hw.auth.scheme rfl hf hg (by decide) (fun p k => (hw.auth.port p k).2)
          have k := start he hi hv rfl
          refine step (op := .hostname []) k (by show IsStr _; decide) (by show IsStr _; decide) (x := .ok ()) ?_
          have hs' : Spec.isSpecial u.scheme = false := by rw [isSpecial_eq, hs]
          have r := Spec.AssignsName.empty (env := env.quiet) (u := { u with scheme := u.scheme, host := some (.str u!"h") }) hs' (by
            rintro (k | k | ⟨p, k, k'⟩)
            · exact k hl.1
            · exact k hl.2.1
            · have k : u.port = some p := k
              rw [a] at k
              cases k
              exact k' rfl)
          have hu : ({ u with host := some (.str []) } : Rec) = u := by rw [← b]
          have r : Spec.AssignsName env.quiet { u with scheme := u.scheme, host := some (.str u!"h") } [] (.ok ())
            { u with host := some (.str []) } := r
          rw [hu] at r
          refine .hostname [] _ _ hlist (.name [] [] _ _ hf ?_ (by intro c hc; cases hc) r)
          exact hostPart_nil _
        · exact absurd b hf
        · exact absurd a hf
    · exact start he hi (hw.strict hd) hc
  · rintro ⟨⟨o, h, rfl⟩, hu⟩
    have hw := (h.objOK (hostSpec_wf hi.quiet)).url
    refine ⟨parts_of_wf (env := env.quiet) he hi.quiet hw ((canon_iff _).2 hu), fun hb => ?_, hw.auth.null⟩
    obtain ⟨a, b, c⟩ := hw.auth.loose hb
    exact ⟨a, b, c.imp id And.right⟩

example : IsURL exEnv exRecord :=
  (C113_image exEnv (.inr (by decide)) exEnv_idna exRecord).2 ⟨exRecord_parsed, by intro n h; cases h⟩

/-- the "file" URL with host "localhost" of C46, which the parser does not return -/
example : WellMade exEnv.quiet devLocalhost.url ∧ NearlyBare devLocalhost.url ∧ ¬ IsURL exEnv.quiet devLocalhost.url := by
  have h := (C113_reachable exEnv (.inr (by decide)) exEnv_idna devLocalhost.url).2 ⟨⟨_, devLocalhost_reached, rfl⟩, by intro n h; cases h⟩
  exact ⟨h.1, h.2, fun k => k.localhost rfl rfl⟩

/-- a record written down by hand, with an empty first segment and no host: "a:/.//b" -/
private def odd : Rec := { scheme := u!"a", path := .list [[], u!"b"] }

private theorem odd_isURL : IsURL exEnv odd where
  scheme := ⟨_, _, rfl, by unfold Spec.LowerAlpha; decide, by intro x h; cases h⟩
  username := by intro c h; cases h
  password := by intro c h; cases h
  host := by intro x h; cases h
  port := by intro p h; cases h
  bare := by intro _; exact ⟨rfl, rfl, rfl⟩
  special := by
    rintro ⟨p, h⟩
    simp [Spec.specialSchemes, odd] at h
  localhost := by intro h; exact absurd h (by decide)
  segments := by
    intro l h
    cases h
    refine ⟨(by intro _ e; cases e), ?_⟩
    intro s hs
    simp only [List.mem_cons, List.not_mem_nil, or_false] at hs
    rcases hs with rfl | rfl
    · exact ⟨(by unfold Spec.DotSegment; decide), by intro c hc; cases hc⟩
    · exact ⟨(by unfold Spec.DotSegment; decide), by decide⟩
  drive := by intro h; exact absurd h (by decide)
  opaquePath := by intro s h; cases h
  query := by intro q h; cases h
  fragment := by intro f h; cases h

example : (parseUrl exEnv u!"a:/.//b").res = .ok odd := C113_text exEnv (.inr (by decide)) exEnv_idna odd odd_isURL

end Urlstd.Props
