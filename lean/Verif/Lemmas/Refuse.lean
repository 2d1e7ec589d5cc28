/-
Which texts are refused (C94), from the rules of C83.
-/
import Verif.Spec.Refuse
import Verif.Lemmas.Denote
import Verif.Lemmas.Injective
import Verif.Lemmas.Assign

namespace Urlstd

open Spec (AuthorityEnd Parts Denotes Relative FileText Front Extent PortRefused AuthorityRefused Refused Slash NoSlash tailText TailOK)

variable {env : Env} {base : Option Rec}

/-- the authority of the parts -/
def authorityText (ui : Option Str) (h : Str) (port : Option Str) : Str := (ui.elim [] fun x => x ++ [64]) ++ (h ++ portText port)

theorem authorityText_eq (ui : Option Str) (h : Str) (port : Option Str) : (Parts.mk ui h port [] none none).text = authorityText ui h port := by
  rw [Parts.text_eq]
  simp [authorityText, tailStr]

theorem authorityText_end {sp : Bool} {p : Parts} (ok : p.OK sp) : ∀ c ∈ authorityText p.userinfo p.host p.port, ¬ AuthorityEnd sp c := by
  intro c hc
  unfold authorityText at hc
  have hat : ¬ AuthorityEnd sp 64 := by unfold AuthorityEnd; simp
  have hcol : ¬ AuthorityEnd sp 58 := by unfold AuthorityEnd; simp
  rcases List.mem_append.1 hc with hc | hc
  · cases h : p.userinfo with
    | none => rw [h] at hc; simp at hc
    | some x =>
      rw [h] at hc
      simp only [Option.elim_some, List.mem_append, List.mem_singleton] at hc
      rcases hc with hc | rfl
      · exact ok.userinfo x h c hc
      · exact hat
  · rcases List.mem_append.1 hc with hc | hc
    · exact (ok.host c hc).1
    · cases h : p.port with
      | none => rw [h] at hc; simp [portText] at hc
      | some x =>
        rw [h] at hc
        simp only [portText, Option.elim_some, List.mem_cons] at hc
        rcases hc with rfl | hc
        · exact hcol
        · exact ((ok.port x h).1 c hc).1

theorem rest_end {sp : Bool} {p : Parts} (ok : p.OK sp) : ∀ c, (p.path ++ tailStr p.query p.fragment).head? = some c → AuthorityEnd sp c :=
  fun _ hc => pathTail_end ok.slash hc

theorem portOf_error {sc : Str} {port : Option Str} {e : Err} :
    Spec.portOf env sc port = .error e ↔ ∃ x, port = some x ∧ PortRefused env x e := by
  cases port with
  | none => simp [Spec.portOf]
  | some x =>
    simp only [Spec.portOf, Option.some.injEq, exists_eq_left', PortRefused]
    by_cases h1 : ∀ c ∈ x, Spec.Digit c
    · rw [if_neg (not_not.2 h1)]
      by_cases h2 : x = []
      · subst h2
        rw [if_pos rfl]
        constructor
        · intro h; cases h
        · rintro (⟨⟨c, hc, -⟩, -⟩ | ⟨-, -, h, -⟩ | ⟨-, -, h, -⟩)
          · cases hc
          · simp at h
          · exact absurd h (by decide)
      · rw [if_neg h2]
        have hno : ¬ ∃ c ∈ x, ¬ Spec.Digit c := fun ⟨c, hc, hn⟩ => hn (h1 c hc)
        by_cases h3 : env.maxStrDigits ≠ 0 ∧ env.maxStrDigits < x.length
        · rw [if_pos h3]
          constructor
          · intro h
            injection h with h
            exact .inr (.inl ⟨h1, h3.1, h3.2, h.symm⟩)
          · rintro (⟨h, -⟩ | ⟨-, -, -, rfl⟩ | ⟨-, h, -⟩)
            · exact absurd h hno
            · rfl
            · exact absurd h3 h
        · rw [if_neg h3]
          by_cases h4 : Spec.decimal x > 65535
          · rw [if_pos h4]
            constructor
            · intro h
              injection h with h
              exact .inr (.inr ⟨h1, h3, h4, h.symm⟩)
            · rintro (⟨h, -⟩ | ⟨-, h5, h6, -⟩ | ⟨-, -, -, rfl⟩)
              · exact absurd h hno
              · exact absurd ⟨h5, h6⟩ h3
              · rfl
          · rw [if_neg h4]
            constructor
            · intro h
              split at h <;> cases h
            · rintro (⟨h, -⟩ | ⟨-, h5, h6, -⟩ | ⟨-, -, h5, -⟩)
              · exact absurd h hno
              · exact absurd ⟨h5, h6⟩ h3
              · exact absurd h5 h4
    · rw [if_pos h1]
      have hex : ∃ c ∈ x, ¬ Spec.Digit c := by
        simpa using h1
      constructor
      · intro h
        injection h with h
        exact .inl ⟨hex, h.symm⟩
      · rintro (⟨-, rfl⟩ | ⟨h, -⟩ | ⟨h, -⟩)
        · rfl
        · exact absurd h h1
        · exact absurd h h1

/-- what makes the URL of parts an error -/
theorem url_error {sc : Str} {p : Parts} {e : Err} : p.url env sc = .error e ↔
    (p.host = [] ∧ (Spec.isSpecial sc = true ∨ p.userinfo ≠ none ∨ p.port ≠ none) ∧ e = .urlParse) ∨
    (p.host ≠ [] ∧ (hostParse env p.host (!Spec.isSpecial sc)).res = .error e) ∨
    (p.host ≠ [] ∧ (∃ v, (hostParse env p.host (!Spec.isSpecial sc)).res = .ok v) ∧ ∃ x, p.port = some x ∧ PortRefused env x e) := by
  unfold Parts.url
  by_cases h0 : p.host = []
  · by_cases h1 : Spec.isSpecial sc = true ∨ p.userinfo ≠ none ∨ p.port ≠ none
    · rw [if_pos ⟨h0, h1⟩]
      constructor
      · intro h
        injection h with h
        exact .inl ⟨h0, h1, h.symm⟩
      · rintro (⟨-, -, rfl⟩ | ⟨h, -⟩ | ⟨h, -⟩)
        · rfl
        · exact absurd h0 h
        · exact absurd h0 h
    · rw [if_neg (fun h => h1 h.2)]
      have hs : Spec.isSpecial sc = false := by
        cases h : Spec.isSpecial sc with
        | true => exact absurd (.inl h) h1
        | false => rfl
      have hp : p.port = none := by
        cases h : p.port with
        | none => rfl
        | some x => exact absurd (.inr (.inr (by rw [h]; simp))) h1
      rw [h0, hs, hp]
      constructor
      · intro h
        exact absurd h (by rw [show (hostParse env [] (!false)).res = .ok (.str []) from rfl]; simp [Spec.portOf])
      · rintro (⟨-, h, -⟩ | ⟨h, -⟩ | ⟨h, -⟩)
        · rw [hs] at h1
          rw [hp] at h1
          exact absurd h h1
        · exact absurd rfl h
        · exact absurd rfl h
  · rw [if_neg (fun h => h0 h.1)]
    cases hh : (hostParse env p.host (!Spec.isSpecial sc)).res with
    | error e' =>
      constructor
      · intro h
        injection h with h
        subst h
        exact .inr (.inl ⟨h0, rfl⟩)
      · rintro (⟨h, -⟩ | ⟨-, h⟩ | ⟨-, ⟨v, h⟩, -⟩)
        · exact absurd h h0
        · cases h; rfl
        · cases h
    | ok v =>
      cases hp : Spec.portOf env sc p.port with
      | error e' =>
        constructor
        · intro h
          injection h with h
          subst h
          exact .inr (.inr ⟨h0, ⟨v, rfl⟩, portOf_error.1 hp⟩)
        · rintro (⟨h, -⟩ | ⟨-, h⟩ | ⟨-, -, h⟩)
          · exact absurd h h0
          · cases h
          · rw [portOf_error.2 h] at hp
            injection hp with hp
            rw [hp]
      | ok n =>
        constructor
        · intro h; cases h
        · rintro (⟨h, -⟩ | ⟨-, h⟩ | ⟨-, -, h⟩)
          · exact absurd h h0
          · cases h
          · rw [portOf_error.2 h] at hp
            cases hp

/-- the parts behind a front are refused if and only if their authority is -/
theorem url_refused {sc : Str} (hf : sc ≠ u!"file") {p : Parts} (ok : p.OK (Spec.isSpecial sc)) {e : Err} :
    p.url env sc = .error e ↔ AuthorityRefused env sc (authorityText p.userinfo p.host p.port) e := by
  unfold AuthorityRefused
  rw [if_neg hf, url_error]
  obtain ⟨ui, h, port, path, q, f⟩ := p
  constructor
  · intro hr
    refine ⟨ui, h, port, ⟨ok.userinfo, ok.host, ok.colon, ok.port, by simp, by simp, by simp, fun _ _ _ _ => rfl⟩,
      (authorityText_eq _ _ _).symm, hr⟩
  · rintro ⟨ui', h', port', ok', ht, hr⟩
    rw [authorityText_eq] at ht
    have e1 := anatomy_text ok'
    have e2 := anatomy_text (p := Parts.mk ui h port [] none none) (sp := Spec.isSpecial sc)
      ⟨ok.userinfo, ok.host, ok.colon, ok.port, by simp, by simp, by simp, fun _ _ _ _ => rfl⟩
    rw [authorityText_eq] at e1 e2
    dsimp only at ht
    rw [ht, e1] at e2
    injection e2 with e2 e3 e4
    subst e2 e3 e4
    exact hr

theorem text_split (p : Parts) : p.text = authorityText p.userinfo p.host p.port ++ (p.path ++ tailStr p.query p.fragment) := by
  rw [Parts.text_eq]; rfl

/-- the parts of an authority and what follows -/
theorem extent_parts {sc a rest : Str} (h : Extent sc a rest) (hf : sc ≠ u!"file") :
    ∃ p : Parts, p.OK (Spec.isSpecial sc) ∧ p.text = a ++ rest ∧ authorityText p.userinfo p.host p.port = a := by
  obtain ⟨ha, hr, hs⟩ := h
  have hsl : Spec.isSpecial sc = true → ∀ c, (a ++ rest).head? = some c → c ≠ 47 ∧ c ≠ 92 := by
    intro hsp c hc
    cases a with
    | nil =>
      have := hs hsp hf rfl c hc
      unfold Slash at this
      simpa [hsp] using this
    | cons x xs =>
      simp only [List.cons_append, List.head?_cons, Option.some.injEq] at hc
      subst hc
      have := ha x (List.mem_cons_self ..)
      unfold AuthorityEnd at this
      rw [hsp] at this
      refine ⟨fun h => this (.inl h), fun h => this (.inr (.inr (.inr ⟨rfl, h⟩)))⟩
  obtain ⟨h1, h2⟩ := anatomy_spec hsl
  refine ⟨_, h2, h1, ?_⟩
  have h3 := h1
  rw [text_split] at h3
  refine (split_unique (p := isAuthorityEnd (Spec.isSpecial sc)) ?_ ?_ ?_ ?_ h3).1
  · intro c hc
    have := authorityText_end h2 c hc
    rw [← authorityEnd_iff] at this
    simpa using this
  · intro c hc
    have := ha c hc
    rw [← authorityEnd_iff] at this
    simpa using this
  · exact fun c hc => authorityEnd_iff.2 (rest_end h2 c hc)
  · exact fun c hc => authorityEnd_iff.2 (hr c hc)

theorem parts_extent {sc : Str} {p : Parts} (ok : p.OK (Spec.isSpecial sc)) :
    Extent sc (authorityText p.userinfo p.host p.port) (p.path ++ tailStr p.query p.fragment) := by
  refine ⟨authorityText_end ok, rest_end ok, fun hsp hf ha c hc => ?_⟩
  have h1 : p.userinfo = none := by
    cases h : p.userinfo with
    | none => rfl
    | some x => rw [h] at ha; simp [authorityText] at ha
  rw [h1] at ha
  simp only [authorityText, Option.elim_none, List.nil_append, List.append_eq_nil_iff] at ha
  have h2 : p.port = none := by
    cases h : p.port with
    | none => rfl
    | some x => rw [h] at ha; simp [portText] at ha
  have h3 := ok.start hsp ha.1 h1 h2
  rw [h3, List.nil_append] at hc
  rcases tailStr_head _ _ c hc with rfl | rfl <;> unfold Slash <;> simp

theorem not_hasScheme_slash {s : Nat} {t : Str} {sp : Bool} (h : Slash sp s) : ¬ Spec.HasScheme (s :: t) := by
  rintro ⟨sc, rest, ⟨c, cs, rfl, hc, -⟩, he⟩
  simp only [List.cons_append] at he
  injection he with he _
  subst he
  unfold Spec.Letter at hc
  unfold Slash at h
  omega

/-- the rule for a text with an authority -/
theorem front_denotes {front sc a rest : Str} (hf : Front base front sc) (hx : Extent sc a rest) :
    ∃ x, Denotes env base (front ++ a ++ rest) x ∧ ∀ e, x = .error e ↔ AuthorityRefused env sc a e := by
  have file : ∀ {s1 s2 : Nat}, Slash true s1 → Slash true s2 → Extent u!"file" a rest →
      ∃ x, FileText env base (s1 :: s2 :: (a ++ rest)) x ∧ ∀ e, x = .error e ↔ AuthorityRefused env u!"file" a e := by
    intro s1 s2 h1 h2 hx
    obtain ⟨ha, hr, -⟩ := hx
    have hsp : Spec.isSpecial u!"file" = true := by decide
    rw [hsp] at ha hr
    have hsplit : rest = rest.takeWhile notQF ++ rest.dropWhile notQF := (List.takeWhile_append_dropWhile ..).symm
    have hd : ∀ c, (rest.dropWhile notQF).head? = some c → c = 63 ∨ c = 35 := by
      intro c hc
      have := head_dropWhile_false hc
      simp [notQF] at this
      omega
    obtain ⟨t1, t2⟩ := tailParts_text hd
    have htext : rest = tailText (rest.takeWhile notQF) (tailParts (rest.dropWhile notQF)).1 (tailParts (rest.dropWhile notQF)).2 := by
      rw [tailText_eq, t1, ← hsplit]
    have hok : TailOK (rest.takeWhile notQF) (tailParts (rest.dropWhile notQF)).1 := by
      refine ⟨fun c hc => ?_, t2⟩
      have := mem_takeWhile_true hc
      simpa [notQF] using this
    have hslash : ∀ c, (rest.takeWhile notQF).head? = some c → Slash true c := by
      intro c hc
      cases hrest : rest with
      | nil => rw [hrest] at hc; cases hc
      | cons y ys =>
        rw [hrest] at hc
        rw [List.takeWhile_cons] at hc
        split at hc
        · next hq =>
          simp only [List.head?_cons, Option.some.injEq] at hc
          subst hc
          have := hr y (by rw [hrest]; rfl)
          unfold AuthorityEnd at this
          unfold Slash
          simp [notQF] at hq
          simp at this ⊢
          omega
        · cases hc
    have hdef : ∀ e, AuthorityRefused env u!"file" a e ↔ a ≠ [] ∧ Spec.isDrive a = false ∧ (hostParse env a false).res = .error e := by
      intro e
      unfold AuthorityRefused
      rw [if_pos rfl]
    simp only [hdef]
    by_cases ha0 : a = []
    · subst ha0
      have := FileText.noHost (env := env) (base := base) s1 s2 _ _ (tailParts (rest.dropWhile notQF)).2 h1 h2 hslash hok
      rw [← htext] at this
      refine ⟨_, this, fun e => ⟨fun h => (by cases h), fun h => absurd rfl h.1⟩⟩
    · cases hdr : Spec.isDrive a with
      | true =>
        have := FileText.drive (env := env) (base := base) s1 s2 a _ _ (tailParts (rest.dropWhile notQF)).2 h1 h2 hdr hslash hok
        rw [← htext] at this
        refine ⟨_, this, fun e => ⟨fun h => (by cases h), fun h => (by cases h.2.1)⟩⟩
      | false =>
        cases hv : (hostParse env a false).res with
        | ok v =>
          have := FileText.host (env := env) (base := base) s1 s2 a _ _ (tailParts (rest.dropWhile notQF)).2 v h1 h2 ha0 ha hdr hv hslash hok
          rw [← htext] at this
          refine ⟨_, this, fun e => ⟨fun h => (by cases h), fun h => (by cases h.2.2)⟩⟩
        | error e' =>
          have := FileText.badHost (env := env) (base := base) s1 s2 a _ _ (tailParts (rest.dropWhile notQF)).2 e' h1 h2 ha0 ha hdr hv hslash hok
          rw [← htext] at this
          refine ⟨_, this, fun e => ⟨fun h => ⟨ha0, rfl, by cases h; rfl⟩, fun h => (by cases h.2.2; rfl)⟩⟩
  have notFile : sc ≠ u!"file" → (∀ p : Parts, p.OK (Spec.isSpecial sc) → Denotes env base (front ++ p.text) (p.url env sc)) →
      ∃ x, Denotes env base (front ++ a ++ rest) x ∧ ∀ e, x = .error e ↔ AuthorityRefused env sc a e := by
    intro hnf h
    obtain ⟨p, h1, h2, h3⟩ := extent_parts hx hnf
    refine ⟨p.url env sc, ?_, fun e => ?_⟩
    · have := h p h1
      rwa [h2, ← List.append_assoc] at this
    · rw [url_refused hnf h1, h3]
  cases hf with
  | special sc sl hsc hs hf hb' hsl =>
    refine notFile hf fun p ok => ?_
    rw [hs] at ok
    have := Denotes.special (env := env) sc sl p hsc hs hf hb' hsl ok
    simpa using this
  | specialSlashes sc s1 s2 sl hsc hs hf h1 h2 hsl =>
    refine notFile hf fun p ok => ?_
    rw [hs] at ok
    by_cases hss : s1 = 47 ∧ s2 = 47
    · obtain ⟨rfl, rfl⟩ := hss
      have := Denotes.specialSlashes (env := env) (base := base) sc sl p hsc hs hf hsl ok
      simpa using this
    · by_cases hbs : ∀ b, base = some b → b.scheme ≠ Spec.toLower sc
      · have := Denotes.special (env := env) sc (s1 :: s2 :: sl) p hsc hs hf hbs (by
          intro c hc
          rcases List.mem_cons.1 hc with rfl | hc
          · exact h1
          rcases List.mem_cons.1 hc with rfl | hc
          · exact h2
          · exact hsl c hc) ok
        simpa using this
      · simp only [not_forall, not_not] at hbs
        obtain ⟨b, hbase, hbs⟩ := hbs
        have hbsp : Spec.isSpecial b.scheme = true := by rw [hbs]; exact hs
        have hrel := Relative.authority (env := env) (b := b) s1 s2 sl p (by rw [hbsp]; exact h1) (by rw [hbsp]; exact h2)
          (fun c hc => ⟨hbsp, hsl c hc⟩) (by rw [hbsp]; exact ok)
        rw [hbs] at hrel
        have := Denotes.sameScheme (env := env) sc (s1 :: s2 :: (sl ++ p.text)) b _ hsc hs hf hbase hbs (by
          intro t ht
          simp at ht
          exact hss ⟨ht.1, ht.2.1⟩) hrel
        simpa using this
  | other sc hsc hs =>
    have hnf : Spec.toLower sc ≠ u!"file" := fun h => by rw [h] at hs; exact absurd hs (by decide)
    refine notFile hnf fun p ok => ?_
    rw [hs] at ok
    exact Denotes.authority (env := env) (base := base) sc p hsc hs ok
  | file sc s1 s2 hsc hf h1 h2 =>
    obtain ⟨x, h3, h4⟩ := file h1 h2 hx
    refine ⟨x, ?_, h4⟩
    have := Denotes.file sc _ x hsc hf h3
    simpa using this
  | fileReference b p s1 s2 hbase hp hf h1 h2 =>
    obtain ⟨x, h3, h4⟩ := file h1 h2 hx
    refine ⟨x, ?_, h4⟩
    have := Denotes.fileBase (env := env) _ b p x (not_hasScheme_slash h1) hbase hp hf h3
    simpa using this
  | reference b p s1 s2 sl hbase hp hf h1 h2 hsl =>
    refine notFile hf fun q ok => ?_
    have := Denotes.reference (env := env) _ b p _ (not_hasScheme_slash h1) hbase hp hf (Relative.authority s1 s2 sl q h1 h2 hsl ok)
    simpa using this

/-- a text that is refused has no base that it needs, or an authority -/
theorem denotes_front {t : Str} {e : Err} (h : Denotes env base t (.error e)) :
    (e = .urlParse ∧ ¬ Spec.HasScheme t ∧
      (base = none ∨ ∃ b x, base = some b ∧ b.path = .opaque x ∧ t.head? ≠ some c!"#")) ∨
    ∃ front sc a rest, Front base front sc ∧ Extent sc a rest ∧ t = front ++ a ++ rest := by
  have file : ∀ {r : Str}, FileText env base r (.error e) → ∃ s1 s2 a rest, Slash true s1 ∧ Slash true s2 ∧ Extent u!"file" a rest ∧
      r = s1 :: s2 :: (a ++ rest) := by
    intro r h
    generalize hx : (Except.error e : Except Err Rec) = x at h
    cases h with
    | badHost s1 s2 host path q f e' h1 h2 hne hh hd he hp ok =>
      refine ⟨s1, s2, host, tailText path q f, h1, h2, ⟨hh, ?_, fun _ h => absurd rfl h⟩, rfl⟩
      intro c hc
      rw [tailText_eq] at hc
      exact pathTail_end (sp := true) (by intro c hc; have := hp c hc; unfold Slash at this; simpa using this) hc
    | _ => cases hx
  have relative : ∀ {b : Rec} {r : Str}, Relative env b r (.error e) → ∃ s1 s2 sl a rest, Slash (Spec.isSpecial b.scheme) s1 ∧
      Slash (Spec.isSpecial b.scheme) s2 ∧ (∀ c ∈ sl, Spec.isSpecial b.scheme = true ∧ Slash true c) ∧ Extent b.scheme a rest ∧
      r = s1 :: s2 :: (sl ++ a ++ rest) := by
    intro b r h
    generalize hx : (Except.error e : Except Err Rec) = x at h
    cases h with
    | authority s1 s2 sl p h1 h2 hsl ok =>
      refine ⟨s1, s2, sl, _, _, h1, h2, hsl, parts_extent ok, ?_⟩
      rw [text_split, List.append_assoc]
    | _ => cases hx
  generalize hx : (Except.error e : Except Err Rec) = x at h
  cases h with
  | file sc r x hsc hf h =>
    subst hx
    obtain ⟨s1, s2, a, rest, h1, h2, h3, rfl⟩ := file h
    exact .inr ⟨_, _, a, rest, .file sc s1 s2 hsc hf h1 h2, h3, by simp⟩
  | special sc sl p hsc hs hf hb hsl ok =>
    refine .inr ⟨_, _, _, _, .special sc sl hsc hs hf hb hsl, parts_extent (by rw [hs]; exact ok), ?_⟩
    rw [text_split]
    simp
  | specialSlashes sc sl p hsc hs hf hsl ok =>
    refine .inr ⟨_, _, _, _, .specialSlashes sc 47 47 sl hsc hs hf (.inl rfl) (.inl rfl) hsl, parts_extent (by rw [hs]; exact ok), ?_⟩
    rw [text_split]
    simp
  | sameScheme sc r b x hsc hs hf hbase hb h0 h =>
    subst hx
    obtain ⟨s1, s2, sl, a, rest, h1, h2, h3, h4, rfl⟩ := relative h
    have hbs : Spec.isSpecial b.scheme = true := by rw [hb]; exact hs
    rw [hbs] at h1 h2
    rw [hb] at h4
    refine .inr ⟨_, _, a, rest, .specialSlashes sc s1 s2 sl hsc hs hf h1 h2 (fun c hc => (h3 c hc).2), h4, by simp⟩
  | authority sc p hsc hs ok =>
    refine .inr ⟨_, _, _, _, .other sc hsc hs, parts_extent (by rw [hs]; exact ok), ?_⟩
    rw [text_split]
    simp
  | rooted => cases hx
  | «opaque» => cases hx
  | noBase r hr hb => cases hx; exact .inl ⟨rfl, hr, .inl hb⟩
  | opaqueFragment => cases hx
  | opaqueOther r b t hr hbase hp hh => cases hx; exact .inl ⟨rfl, hr, .inr ⟨b, t, hbase, hp, hh⟩⟩
  | fileBase r b p x hr hbase hp hf h =>
    subst hx
    obtain ⟨s1, s2, a, rest, h1, h2, h3, rfl⟩ := file h
    exact .inr ⟨_, _, a, rest, .fileReference b p s1 s2 hbase hp hf h1 h2, h3, by simp⟩
  | reference r b p x hr hbase hp hf h =>
    subst hx
    obtain ⟨s1, s2, sl, a, rest, h1, h2, h3, h4, rfl⟩ := relative h
    exact .inr ⟨_, _, a, rest, .reference b p s1 s2 sl hbase hp hf h1 h2 h3, h4, by simp⟩

end Urlstd
