/-
The operations on which the library and the standard disagree.
-/
import Verif.Lemmas.AsciiCount
import Verif.Lemmas.SchemeStart
import Verif.Props.Exact2
import Verif.Spec.ApiExact

set_option linter.unusedVariables false

namespace Urlstd

open Spec (IsStr IsScalarStr Performs Halts runState Letter BarePortZero ProtocolOdd HostOdd HasEscape HasTilde)

/-! ### The scheme -/

theorem bare_iff (u : Rec) : BarePortZero u ↔ u.port = some 0 ∧ u.includesCredentials = false := by
  unfold BarePortZero Rec.includesCredentials
  simp

theorem special_rec (u : Rec) : Spec.Special u.scheme ↔ u.isSpecial = true := (special_iff u.scheme).symm

/-- a text that is "file" but for case -/
theorem file_text {w : Str} (h : Spec.toLower w = u!"file") : Spec.SchemeText w := by
  have hk : ∀ c ∈ w, Letter c := by
    intro c hc
    have hm := List.mem_map_of_mem (f := fun c => if c!"A" ≤ c ∧ c ≤ c!"Z" then c - c!"A" + c!"a" else c) hc
    have hm : _ ∈ Spec.toLower w := hm
    rw [h] at hm
    have hl : ∀ d ∈ u!"file", 97 ≤ d ∧ d ≤ 122 := by decide
    have := hl _ hm
    unfold Letter
    split at this <;> omega
  cases w with
  | nil => cases h
  | cons c cs => exact ⟨c, cs, rfl, hk c (by simp), fun x hx => .inl (hk x (by simp [hx]))⟩

theorem removeTab_colon (v : Str) : removeTabNewline (v ++ u!":") = Spec.dropTabs v ++ u!":" := by
  rw [← dropTabs_eq]
  unfold Spec.dropTabs
  rw [List.filter_append]
  congr 1

/-- the text of the scheme setter names the scheme file -/
theorem file_scheme_iff (v : Str) : (∃ r, takeScheme (removeTabNewline (v ++ u!":")) = some (u!"file", r)) ↔
    ∃ w rest, Spec.dropTabs v ++ u!":" = w ++ c!":" :: rest ∧ Spec.toLower w = u!"file" := by
  rw [removeTab_colon]
  constructor
  · rintro ⟨r, h⟩
    obtain ⟨c, cs, e, _, _, hb⟩ := takeScheme_some h
    exact ⟨c :: cs, r, e, by rw [← toLower_eq, ← hb]⟩
  · rintro ⟨w, r, e, h⟩
    exact ⟨r, by rw [e, takeScheme_any (file_text h), h]⟩

section
variable {env : Env} {s : Str}

theorem odd_scheme_loop {K : Spec.Ctx} {u : Rec} (hov : K.override.isSome = true) (hsp : u.isSpecial = true) (hpt : u.port = some 0)
    (rest : Str) : ∀ (i : Nat) (hd : s.drop i = rest) (hi : i ≤ s.length) (buf r : Str),
    rest.dropWhile isSchemeChar = 58 :: r → buf ++ lower (rest.takeWhile isSchemeChar) = u!"file" →
    Halts K s ⟨.scheme, i, buf, false, false, false, u⟩ (.ok u) := by
  induction rest with
  | nil => intro i hd hi buf r hr _; cases hr
  | cons c cs ih =>
    intro i hd hi buf r hr hb
    have h := run_scheme (K := K) (some c) cs buf i false false false u
    dsimp only at h
    by_cases hc : isSchemeChar c = true
    · rw [if_pos ((schemeChar_eq c).2 hc)] at h
      rw [List.dropWhile_cons_of_pos hc] at hr
      rw [List.takeWhile_cons_of_pos hc] at hb
      have e1 : ∀ t, buf ++ lower (c :: t) = (buf ++ Spec.toLower [c]) ++ lower t := by
        intro t
        rw [show c :: t = [c] ++ t from rfl, lower_append, toLower_eq_lower, List.append_assoc]
      rw [e1] at hb
      exact m_adv hd h (ih (i + 1) (drop_next hd) (drop_lt hd) (buf ++ Spec.toLower [c]) r hr hb)
    · rw [List.dropWhile_cons_of_neg hc] at hr
      rw [List.takeWhile_cons_of_neg hc] at hb
      have hl : buf ++ lower [] = buf := List.append_nil buf
      rw [hl] at hb
      cases hr
      rw [if_neg (fun x => hc ((schemeChar_eq 58).1 x)), if_pos rfl, hov, if_pos rfl, isSpecial_rec, hsp, hpt] at h
      subst hb
      refine m_ret hd (h.trans ?_)
      rw [if_neg (by decide), if_neg (by decide), if_pos (by simp)]

theorem odd_scheme {K : Spec.Ctx} {u : Rec} (hov : K.override.isSome = true) (hsp : u.isSpecial = true) (hpt : u.port = some 0)
    {r : Str} (h : takeScheme s = some (u!"file", r)) : Halts K s (.start .schemeStart u) (.ok u) := by
  obtain ⟨c, cs, e, ha, hcs, hb⟩ := takeScheme_some h
  have hrun := run_schemeStart (K := K) s.head? s.tail [] ((0 : Nat) : Int) false false false u
  rw [e] at hrun
  dsimp only [List.head?_cons, List.tail_cons, List.cons_append] at hrun
  rw [if_pos (isAlpha_iff.1 ha)] at hrun
  have hd : s.drop 0 = c :: (cs ++ 58 :: r) := e
  have h2 : ∀ x, (58 :: r : Str).head? = some x → isSchemeChar x = false := by
    intro x hx
    simp at hx; subst hx; decide
  refine m_adv hd hrun (odd_scheme_loop hov hsp hpt (cs ++ 58 :: r) 1 (drop_next hd) (drop_lt hd) _ r ?_ ?_)
  · rw [dropWhile_append hcs h2]
  · rw [takeWhile_append hcs h2, hb, show c :: cs = [c] ++ cs from rfl, lower_append, toLower_eq_lower]; rfl

end

variable {env : Env} {o : URLObj}

/-- By the standard a special URL with a port does not become a file URL. -/
theorem odd_protocol_std {v : Str} (h : ProtocolOdd o.url v) (hp : Str → Bool → Option Host) :
    Performs hp o (.protocol v) false o := by
  obtain ⟨hb, hs, _, hw⟩ := h
  obtain ⟨r, hr⟩ := (file_scheme_iff v).2 hw
  refine ⟨.ok o.url, ?_, rfl, rfl⟩
  unfold Spec.Modifies
  rw [dropTabs_eq]
  exact odd_scheme rfl ((special_rec _).1 hs) ((bare_iff _).1 hb).1 hr

/-- In the library it does, if the port is 0. -/
theorem odd_protocol_code {v : Str} (h : ProtocolOdd o.url v) :
    applyOp env o (.protocol v) = (.ok (), { o with url := { o.url with scheme := u!"file" } }) := by
  obtain ⟨hb, hs, hf, hw⟩ := h
  obtain ⟨r, hr⟩ := (file_scheme_iff v).2 hw
  obtain ⟨hb1, hb2⟩ := (bare_iff _).1 hb
  have hs := (special_rec _).1 hs
  have hpt : o.url.portTruthy = false := by unfold Rec.portTruthy; rw [hb1]; rfl
  show setterParse env o o.url (v ++ u!":") .schemeStart = _
  rw [setterParse_eq, eval_step _ _ _ _ (by decide)]
  have : (sstep env.quiet .utf8 none (some .schemeStart) .schemeStart (removeTabNewline (v ++ u!":")) o.url).andThen env.quiet
      .utf8 none (some .schemeStart) = (.ok (), { o.url with scheme := u!"file" }) := by
    show (sScheme none (some .schemeStart) (removeTabNewline (v ++ u!":")) o.url).andThen env.quiet .utf8 none (some .schemeStart) = _
    rw [sScheme_eq, hr]
    dsimp only
    unfold schemeDone
    rw [if_pos rfl]
    show eval env.quiet .utf8 none (some .schemeStart) .eof r (overrideScheme o.url u!"file") = _
    rw [eval_eof]
    unfold overrideScheme schemeRefused
    have hsf : isSpecialScheme u!"file" = true := by decide
    have hnf : (o.url.scheme == u!"file") = false := by simpa using hf
    rw [hs, hb2, hpt, hsf, hnf, hb1]
    rfl
  rw [this]

theorem done_protocol_exact (h : ObjOK P o) {v : Str} (hs : IsScalarStr v) (hn : ¬ ProtocolOdd o.url v)
    (hd : env.maxStrDigits = 0 ∨ v.length + 1 ≤ env.maxStrDigits) :
    Done (Performs (hostOf env.quiet) o (.protocol v)) (setProtocol env o v) := by
  refine done_protocol h hs (fun r hr h0 h1 h2 => Classical.byContradiction fun h3 => hn ⟨(bare_iff _).2 ⟨h0, h1⟩, (special_rec _).2 h2, h3, ?_⟩) hd
  exact (file_scheme_iff v).1 ⟨r, hr⟩

/-! ### The host -/

/-- the text of a host setter names the empty host, on a URL that is not special -/
def EmptyHost (v : Str) : Prop := ∀ c, (Spec.dropTabs v).head? = some c → c = c!"/" ∨ c = c!"?" ∨ c = c!"#"

theorem emptyHost_span {s : Str} (h : ∀ c, s.head? = some c → c = c!"/" ∨ c = c!"?" ∨ c = c!"#") :
    hostSpan false false s = ([], s) := by
  cases s with
  | nil => rfl
  | cons c cs =>
    unfold hostSpan
    rw [if_pos]
    rcases h c rfl with rfl | rfl | rfl <;> rfl

theorem span_emptyHost {s : Str} (h : (hostSpan false false s).1 = []) (hc : (hostSpan false false s).2.head? ≠ some c!":") :
    ∀ c, s.head? = some c → c = c!"/" ∨ c = c!"?" ∨ c = c!"#" := by
  cases s with
  | nil => intro c h; cases h
  | cons x xs =>
    intro c hx
    simp only [List.head?_cons, Option.some.injEq] at hx
    subst hx
    unfold hostSpan at h hc
    split at h
    · next hx =>
      rw [if_pos hx] at hc
      have hne : x ≠ 58 := fun e => hc (by rw [e]; rfl)
      simp only [isAuthorityEnd, Bool.false_and, Bool.or_false, Bool.or_eq_true, beq_iff_eq, Bool.and_eq_true,
        decide_eq_true_eq] at hx
      rcases hx with hx | (hx | hx) | hx
      · exact absurd hx.1 hne
      · exact .inl hx
      · exact .inr (.inl hx)
      · exact .inr (.inr hx)
    · cases h

theorem emptyHost_ends {s : Str} (u : Rec) (h : ∀ c, s.head? = some c → c = c!"/" ∨ c = c!"?" ∨ c = c!"#") :
    Spec.endsAuthority u s.head? = true ∧ (s.head? == some c!":") = false := by
  cases s with
  | nil => exact ⟨rfl, rfl⟩
  | cons c cs => rcases h c rfl with rfl | rfl | rfl <;> exact ⟨by simp [Spec.endsAuthority], rfl⟩

theorem odd_host_std {v : Str} {ov : Spec.State} (hov : ov = .host ∨ ov = .hostname) (hp : Str → Bool → Option Host)
    (h1 : o.url.port = some 0) (h2 : o.url.isSpecial = false) (hv : EmptyHost v) :
    Spec.Runs hp o v o.url ov false o := by
  refine ⟨.ok o.url, ?_, rfl, rfl⟩
  unfold Spec.Modifies
  have hs : (o.url.scheme == u!"file") = false := by
    have : o.url.scheme ≠ u!"file" := by
      intro h
      have : o.url.isSpecial = true := by unfold Rec.isSpecial; rw [h]; decide
      rw [h2] at this; cases this
    simpa using this
  obtain ⟨he, hc⟩ := emptyHost_ends o.url hv
  have h := run_host (K := ⟨none, Spec.encoder .utf8, some ov, hp⟩) (Spec.dropTabs v).head? (Spec.dropTabs v).tail [] ((0 : Nat) : Int)
    false false false o.url hov
  rw [hs, hc, he, isSpecial_rec, h2, h1] at h
  exact m_ret (i := 0) rfl (h.trans (by simp))

theorem odd_host_code {v : Str} {ov : PState} (hov : ov = .host ∨ ov = .hostname)
    (h1 : o.url.port = some 0) (h2 : o.url.isSpecial = false) (h3 : o.url.includesCredentials = false) (hv : EmptyHost v) :
    setterParse env o o.url v ov = (.ok (), { o with url := { o.url with host := some (.str []) } }) := by
  have hpt : o.url.portTruthy = false := by unfold Rec.portTruthy; rw [h1]; rfl
  have hs : (o.url.scheme == u!"file") = false := by
    have : o.url.scheme ≠ u!"file" := by
      intro h
      have : o.url.isSpecial = true := by unfold Rec.isSpecial; rw [h]; decide
      rw [h2] at this; cases this
    simpa using this
  rw [setterParse_eq, eval_step _ _ _ _ (by rcases hov with rfl | rfl <;> decide)]
  unfold EmptyHost at hv
  rw [dropTabs_eq] at hv
  generalize removeTabNewline v = t at hv ⊢
  have e1 : sstep env.quiet .utf8 none (some ov) ov t o.url = sHost env.quiet (some ov) t o.url := by
    rcases hov with rfl | rfl <;> rfl
  have e2 : sHost env.quiet (some ov) t o.url = .to .eof t { o.url with host := some (.str []) } := by
    unfold sHost
    rw [hs, h2]
    dsimp only
    rw [emptyHost_span hv, if_neg (by simp)]
    have e3 : sHostEnd env.quiet true [] t o.url = .to .eof t { o.url with host := some (.str []) } := by
      unfold sHostEnd
      rw [h2, h3, hpt]
      rfl
    unfold sHostGo
    cases t with
    | nil => exact e3
    | cons c cs =>
      dsimp only
      rw [if_neg (by rcases hv c rfl with rfl | rfl | rfl <;> decide)]
      exact e3
  rw [e1, e2]
  show ((eval env.quiet .utf8 none (some ov) .eof t _).1, _) = _
  have e4 : (SOut.to PState.eof t { o.url with host := some (.str []) }).andThen env.quiet .utf8 none (some ov) =
    eval env.quiet .utf8 none (some ov) .eof t { o.url with host := some (.str []) } := rfl
  rw [e4, eval_eof]

theorem runs_unique {hp : Str → Bool → Option Host} {v : Str} {u : Rec} {st : Spec.State} {f f' : Bool} {o' o'' : URLObj}
    (h : Spec.Runs hp o v u st f o') (h' : Spec.Runs hp o v u st f' o'') : f' = f ∧ o'' = o' := by
  obtain ⟨r, h1, rfl, rfl⟩ := h
  obtain ⟨r', h1', rfl, rfl⟩ := h'
  rw [h1.unique h1']
  exact ⟨rfl, rfl⟩

/-- The standard leaves no choice. -/
theorem performs_unique {hp : Str → Bool → Option Host} {op : Op} {f f' : Bool} {o' o'' : URLObj}
    (h : Performs hp o op f o') (h' : Performs hp o op f' o'') : f' = f ∧ o'' = o' := by
  have hc : ∀ {c : Prop} [Decidable c] {P Q : Bool → URLObj → Prop}, (∀ f f' o' o'', P f o' → P f' o'' → f' = f ∧ o'' = o') →
      (∀ f f' o' o'', Q f o' → Q f' o'' → f' = f ∧ o'' = o') → ∀ f f' o' o'', (if c then P f o' else Q f o') →
      (if c then P f' o'' else Q f' o'') → f' = f ∧ o'' = o' := by
    intro c _ P Q hP hQ f f' o' o'' h h'
    by_cases hc : c
    · rw [if_pos hc] at h h'; exact hP _ _ _ _ h h'
    · rw [if_neg hc] at h h'; exact hQ _ _ _ _ h h'
  have hk : ∀ {x : URLObj} (f f' : Bool) (o' o'' : URLObj), (f = false ∧ o' = x) → (f' = false ∧ o'' = x) → f' = f ∧ o'' = o' := by
    rintro x f f' o' o'' ⟨rfl, rfl⟩ ⟨rfl, rfl⟩; exact ⟨rfl, rfl⟩
  have hr : ∀ {o : URLObj} {v : Str} {u : Rec} {st : Spec.State} (f f' : Bool) (o' o'' : URLObj),
      Spec.Runs hp o v u st f o' → Spec.Runs hp o v u st f' o'' → f' = f ∧ o'' = o' := fun _ _ _ _ h h' => runs_unique h h'
  cases op with
  | href v =>
    obtain ⟨r, h1, rfl, rfl⟩ := h
    obtain ⟨r', h1', rfl, rfl⟩ := h'
    rw [h1.unique h1']
    exact ⟨rfl, rfl⟩
  | protocol v => exact hr _ _ _ _ h h'
  | username v => exact hc hk hk _ _ _ _ h h'
  | password v => exact hc hk hk _ _ _ _ h h'
  | host v => exact hc hk hr _ _ _ _ h h'
  | hostname v => exact hc hk hr _ _ _ _ h h'
  | port v => exact hc hk (hc hk hr) _ _ _ _ h h'
  | pathname v => exact hc hk hr _ _ _ _ h h'
  | search v => exact hc hk hr _ _ _ _ h h'
  | hash v => exact hc hk hr _ _ _ _ h h'
  | spAppend n v => exact hk _ _ _ _ h h'
  | spDelete n v =>
    cases v with
    | none => exact hk _ _ _ _ h h'
    | some v => exact hk _ _ _ _ h h'
  | spSet n v => exact hk _ _ _ _ h h'
  | spSort =>
    obtain ⟨l, hl, h⟩ := h
    obtain ⟨l', hl', h'⟩ := h'
    rw [Props.C53_sort_unique o.params l hl.1 hl.2] at h
    rw [Props.C53_sort_unique o.params l' hl'.1 hl'.2] at h'
    exact hk _ _ _ _ h h'

theorem done_of {hp : Str → Bool → Option Host} {op : Op} {o' : URLObj} (h : Performs hp o op false o') :
    Done (Performs hp o op) (.ok (), o') := by
  intro f o''
  constructor
  · intro h'
    obtain ⟨h1, h2⟩ := performs_unique h h'
    exact ⟨h1.symm, h2.symm⟩
  · rintro ⟨rfl, rfl⟩; exact h

theorem odd_hosts {v : Str} {op : Op} (hop : op = .host v ∨ op = .hostname v) (hb : BarePortZero o.url) (hs : ¬ Spec.Special o.url.scheme)
    (ho : Spec.isOpaque o.url = false) (hv : EmptyHost v) (hp : Str → Bool → Option Host) :
    Performs hp o op false o ∧ applyOp env o op = (.ok (), { o with url := { o.url with host := some (.str []) } }) := by
  obtain ⟨hb1, hb2⟩ := (bare_iff _).1 hb
  have hs : o.url.isSpecial = false := by rw [special_rec] at hs; simpa using hs
  have ho' := isOpaque_rec o.url ▸ ho
  rcases hop with rfl | rfl
  · constructor
    · show if Spec.isOpaque o.url = true then _ else _
      rw [ho, if_neg (by simp)]
      exact odd_host_std (.inl rfl) hp hb1 hs hv
    · show setHost env o v = _
      unfold setHost
      rw [ho', if_neg (by simp)]
      exact odd_host_code (.inl rfl) hb1 hs hb2 hv
  · constructor
    · show if Spec.isOpaque o.url = true then _ else _
      rw [ho, if_neg (by simp)]
      exact odd_host_std (.inr rfl) hp hb1 hs hv
    · show setHostname env o v = _
      unfold setHostname
      rw [ho', if_neg (by simp)]
      exact odd_host_code (.inr rfl) hb1 hs hb2 hv

theorem done_hosts_exact {v : Str} {op : Op} (hop : op = .host v ∨ op = .hostname v) (hs : IsScalarStr v) (hn : ¬ HostOdd o.url v)
    (hd : env.maxStrDigits = 0 ∨ v.length ≤ env.maxStrDigits) :
    Done (Performs (hostOf env.quiet) o op) (applyOp env o op) := by
  by_cases hq : BarePortZero o.url ∧ ¬ Spec.Special o.url.scheme ∧ Spec.isOpaque o.url = false ∧ EmptyHost v
  · obtain ⟨h1, h2, h3, h4⟩ := hq
    have hh : o.url.host = some (.str []) := Classical.byContradiction fun h => hn ⟨h1, h2, h3, h, h4⟩
    obtain ⟨k1, k2⟩ := odd_hosts (env := env) hop h1 h2 h3 h4 (hostOf env.quiet)
    rw [k2, ← hh]
    exact done_of k1
  · by_cases ho : Spec.isOpaque o.url = true
    · have ho' := isOpaque_rec o.url ▸ ho
      rcases hop with rfl | rfl
      · have e : applyOp env o (.host v) = (.ok (), o) := by
          show setHost env o v = _
          unfold setHost
          rw [ho', if_pos rfl]
        rw [e]
        refine done_of ?_
        show if Spec.isOpaque o.url = true then _ else _
        rw [if_pos ho]; exact ⟨rfl, rfl⟩
      · have e : applyOp env o (.hostname v) = (.ok (), o) := by
          show setHostname env o v = _
          unfold setHostname
          rw [ho', if_pos rfl]
        rw [e]
        refine done_of ?_
        show if Spec.isOpaque o.url = true then _ else _
        rw [if_pos ho]; exact ⟨rfl, rfl⟩
    · have ho : Spec.isOpaque o.url = false := by simpa using ho
      have hk : o.url.scheme ≠ u!"file" → (hostSpan o.url.isSpecial false (removeTabNewline v)).2.head? ≠ some c!":" →
          HostPortOK (hostSpan o.url.isSpecial false (removeTabNewline v)).1 o.url := by
        intro _ hc h0 hbuf hsp
        rw [hsp] at hc hbuf
        refine Classical.byContradiction fun hcr => hq ⟨(bare_iff _).2 ⟨h0, by simpa using hcr⟩, by rw [special_rec, hsp]; simp, ho, ?_⟩
        unfold EmptyHost
        rw [dropTabs_eq]
        exact span_emptyHost hbuf hc
      rcases hop with rfl | rfl
      · exact done_host hs hk hd
      · exact done_hostname hs hk hd

/-! ### The query -/

theorem noTab_eq (s : Str) : noTab s = removeTabNewline s := dropTabs_eq s

/-- By the standard the list keeps the tabs and newlines of the text. -/
theorem odd_search_std {v : Str} {c : Nat} (hc : c ∈ v) (hp : Str → Bool → Option Host) {f : Bool} {o' : URLObj}
    (h : Performs hp o (.search v) f o') : o'.params = Spec.urlencodedParse (Spec.utf8 (dropLead c!"?" v)) := by
  have hne : v ≠ [] := by rintro rfl; cases hc
  have h : if v = [] then _ else _ := h
  rw [if_neg hne] at h
  obtain ⟨r, _, _, rfl⟩ := h
  rw [removeLeading_eq]

theorem odd_search {v : Str} (hs : IsScalarStr v) {c : Nat} (hc : c ∈ v) (ht : Spec.TabOrNewline c) :
    (applyOp env o (.search v)).2.params ≠ Spec.urlencodedParse (Spec.utf8 (dropLead c!"?" v)) := by
  have hne : v ≠ [] := by rintro rfl; cases hc
  have hds : IsScalarStr (dropLead c!"?" v) := hs.mono (dropLead_subset _ _)
  show (setSearch env o v).2.params ≠ _
  rw [setSearch_eq env o v hne]
  dsimp only
  rw [encodeQuery_list (scalar_removeTab hds), ← noTab_eq]
  refine form_tabs hds (c := c) ?_ ht
  unfold dropLead
  cases v with
  | nil => exact absurd rfl hne
  | cons x xs =>
    dsimp only
    split
    · next hx =>
      rcases List.mem_cons.1 hc with rfl | hc
      · rw [hx] at ht; exact absurd ht (by unfold Spec.TabOrNewline; decide)
      · exact hc
    · exact hc

/-- the standard's parser always ends, in the query state -/
theorem search_exists {v : Str} (hs : IsScalarStr v) (hd : env.maxStrDigits = 0 ∨ v.length ≤ env.maxStrDigits) :
    ∃ f o', Performs (hostOf env.quiet) o (.search v) f o' := by
  by_cases hv : v = []
  · subst hv; exact ⟨false, _, rfl, rfl⟩
  · have hds : IsScalarStr (dropLead 63 v) := hs.mono (dropLead_subset _ _)
    have hrun := runs_setter (env := env) (o := { o with params := Spec.urlencodedParse (Spec.utf8 (dropLead 63 v)) })
      (u := { o.url with query := some [] }) (v := dropLead 63 v) (ov := .query) (by
        refine m_query (i := 0) (q := []) (simOK_setter hds ?_) rfl (Nat.zero_le _) _ _ _ rfl
        rcases hd with hd | hd
        · exact .inl hd
        · exact .inr (Nat.le_trans (dropLead_length _ _) hd))
    have hk := (hrun _ _).2 ⟨rfl, rfl⟩
    have e : ∀ f o', Performs (hostOf env.quiet) o (.search v) f o' ↔ Spec.Runs (hostOf env.quiet)
        { o with params := Spec.urlencodedParse (Spec.utf8 (dropLead 63 v)) } (dropLead 63 v) { o.url with query := some [] } .query f o' := by
      intro f o'
      show (if v = [] then _ else _) ↔ _
      rw [if_neg hv, removeLeading_eq]
    exact ⟨_, _, (e _ _).2 hk⟩

/-! ### The list -/

theorem hasTilde_iff (l : Params) : HasTilde l ↔ ¬ Spec.NoTilde l := by
  unfold HasTilde Spec.NoTilde
  constructor
  · rintro ⟨p, hp, h⟩ hn
    rcases h with h | h
    · exact (hn p hp).1 h
    · exact (hn p hp).2 h
  · intro h
    refine Classical.byContradiction fun hn => h fun p hp => ⟨fun hc => hn ⟨p, hp, .inl hc⟩, fun hc => hn ⟨p, hp, .inr hc⟩⟩

theorem hasEscape_iff (s : Str) : HasEscape s ↔ ¬ Spec.NoEscape s := by
  unfold HasEscape Spec.NoEscape
  constructor
  · rintro ⟨pre, a, b, post, h1, h2⟩ hn
    exact hn pre a b post h1 h2
  · intro h
    refine Classical.byContradiction fun hn => h fun pre a b post h1 h2 => hn ⟨pre, a, b, post, h1, h2⟩

/-- Decoding changes exactly the names and values with escapes. -/
theorem decoded_iff {s : Str} (hs : IsScalarStr s) : Spec.decoded s ≠ s ↔ HasEscape s := by
  constructor
  · intro h
    rw [hasEscape_iff]
    exact fun hn => h (decoded_plain hs hn)
  · rintro ⟨pre, a, b, post, h1, h2, h3⟩
    exact decoded_ne hs h1 h2 h3

/-- the code's list and the standard's: agreement is equality of the lists and no "~" -/
theorem lists_exact (h : ObjOK P o) {l l' : Params} (hl : ∀ p ∈ l, IsStr p.1 ∧ IsStr p.2) :
    (l' = l ∧ ¬ HasTilde l → Done (Spec.Lists o l) (spMutate o l')) ∧
    (l' ≠ l ∨ HasTilde l → ∀ f o', Spec.Lists o l f o' → (spMutate o l').2 ≠ o') := by
  constructor
  · rintro ⟨rfl, ht⟩
    exact done_lists h hl (Classical.byContradiction fun hn => ht ((hasTilde_iff _).2 hn))
  · rintro hd f o' ⟨rfl, rfl⟩ heq
    have e1 : l' = l := congrArg URLObj.params heq
    subst e1
    have ht := hd.resolve_left (fun h => h rfl)
    have e2 : spUpdate l' o.url = Spec.updateQuery l' o.url := congrArg URLObj.url heq
    have e3 := congrArg Rec.query e2
    refine (hasTilde_iff _).1 ht ((Props.C09_exact l' hl).1 ?_)
    have hn : urlencode l' ≠ [] := by
      intro h0
      have := (urlencode_nil_iff l').1 h0
      subst this
      obtain ⟨p, hp, _⟩ := ht
      cases hp
    unfold spUpdate Spec.updateQuery spToStr at e3
    dsimp only at e3
    rw [if_neg (by simpa using hn)] at e3
    split at e3
    · have : (Spec.stripOpaque { o.url with query := none }).query = none := by
        rw [stripOpaque_eq (u := { o.url with query := none }) (opaqueOK_of h), rstrip_query]
      rw [this] at e3
      cases e3
    · simpa using e3

theorem spSet_setPair (l : Params) (n : Str) (w : ParamVal) (hn : IsStr n) (hw : w.IsStr) :
    spSet l n w = Spec.setPair (Spec.decoded n) (Spec.decoded w.toStr) l := by
  generalize hN : Spec.decoded n = N
  generalize hW : Spec.decoded w.toStr = W
  have key : ∀ l : Params, (∀ p ∈ l, p.1 ≠ N) → Spec.setPair N W l = l ++ [(N, W)] := by
    intro l
    induction l with
    | nil => intro _; rfl
    | cons p ps ih =>
      intro h
      unfold Spec.setPair
      rw [if_neg (h p (by simp)), ih fun q hq => h q (by simp [hq])]
      rfl
  have key2 : ∀ (pre : Params) w' post, (∀ p ∈ pre, p.1 ≠ N) →
      Spec.setPair N W (pre ++ (N, w') :: post) = pre ++ (N, W) :: post.filter (fun p => p.1 ≠ N) := by
    intro pre w' post
    induction pre with
    | nil => intro _; show Spec.setPair N W ((N, w') :: post) = _; unfold Spec.setPair; rw [if_pos rfl]; rfl
    | cons p ps ih =>
      intro h
      show Spec.setPair N W (p :: (ps ++ (N, w') :: post)) = _
      unfold Spec.setPair
      rw [if_neg (h p (by simp)), ih fun q hq => h q (by simp [hq])]
      rfl
  rcases split_first N l with h | ⟨pre, w', post, rfl, h⟩
  · rw [key l h, Props.C49_set_new l n w hn hw (by rw [hN]; exact h), hN, hW]
  · have := Props.C49_set_replaces pre post w' n w hn hw (by rw [hN]; exact h)
    rw [hN, hW] at this
    rw [key2 _ _ _ h, this]

theorem setPair_mem (n v : Str) (l : Params) : ∀ p, p ∈ Spec.setPair n v l → p ∈ l ∨ p = (n, v) := by
  induction l with
  | nil => intro p hp; exact .inr (List.mem_singleton.1 hp)
  | cons q qs ih =>
    intro p hp
    unfold Spec.setPair at hp
    split at hp
    · rcases List.mem_cons.1 hp with hp | hp
      · exact .inr hp
      · exact .inl (List.mem_cons_of_mem _ (List.mem_filter.1 hp).1)
    · rcases List.mem_cons.1 hp with hp | hp
      · exact .inl (by rw [hp]; simp)
      · exact (ih p hp).imp (List.mem_cons_of_mem _) id

theorem filter_ne_iff {α : Type} {p q : α → Bool} {l : List α} : l.filter p ≠ l.filter q ↔ ∃ x ∈ l, p x ≠ q x := by
  constructor
  · intro h
    refine Classical.byContradiction fun hn => h (List.filter_congr fun x hx => ?_)
    exact Classical.byContradiction fun hne => hn ⟨x, hx, hne⟩
  · rintro ⟨x, hx, hne⟩ h
    have : x ∈ l.filter p ↔ x ∈ l.filter q := by rw [h]
    rw [List.mem_filter, List.mem_filter] at this
    apply hne
    rw [Bool.eq_iff_iff]
    exact ⟨fun h => (this.1 ⟨hx, h⟩).2, fun h => (this.2 ⟨hx, h⟩).2⟩

end Urlstd
