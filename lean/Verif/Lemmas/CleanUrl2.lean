/-
The states of the parser keep a URL free of validation errors, if none is recorded.
-/
import Verif.Lemmas.CleanUrl1
import Verif.Props.ErrorFree

set_option linter.unusedSimpArgs false
set_option linter.unusedVariables false

namespace Urlstd

open Spec (URLUnits Units CleanUrl PathText)

section
variable {env : Env} {s : Str} {base : Option Rec}

/-- what is needed at the states besides -/
def CleanAt (base : Option Rec) : PState → Str → Rec → Prop
  | .schemeStart, _, url | .noScheme, _, url | .relative, _, url | .specialRelativeOrAuthority, _, url => url.host = none
  | .relativeSlash, _, url => ∀ b, base = some b → url.scheme = b.scheme
  | .fileSlash, _, url | .fileHost, _, url => url.scheme = u!"file"
  | .opaquePath, t, url => ∀ l, url.path = .list l → t = []
  | .hostname, _, _ => False
  | _, _, _ => True

/-- a step leads to a clean URL -/
def SOut.clean (base : Option Rec) : SOut → Prop
  | .to st t url => CleanUrl url ∧ CleanAt base st t url
  | .fail _ _ => True

theorem clean_ite {c : Prop} [Decidable c] {a b : SOut} (ha : a.clean base) (hb : b.clean base) :
    (if c then a else b).clean base := by split <;> assumption

theorem units_nil : Units [] := .nil

theorem clean_query_empty {u : Rec} (h : CleanUrl u) : CleanUrl { u with query := some [] } :=
  { h with query := fun q hq => by cases hq; exact .nil }

theorem clean_query_none {u : Rec} (h : CleanUrl u) : CleanUrl { u with query := none } :=
  { h with query := fun q hq => by cases hq }

theorem clean_fragment_empty {u : Rec} (h : CleanUrl u) : CleanUrl { u with fragment := some [] } :=
  { h with fragment := fun q hq => by cases hq; exact .nil }

theorem afterPath_clean {st : PState} (hst : st = .eof ∨ st = .opaquePath) {r : Str} {u : Rec} (h : CleanUrl u) :
    (afterPath st r u).clean base := by
  unfold afterPath
  cases r with
  | nil =>
    refine ⟨h, ?_⟩
    rcases hst with rfl | rfl
    · trivial
    · exact fun _ _ => rfl
  | cons c cs => exact clean_ite ⟨clean_query_empty h, trivial⟩ ⟨clean_fragment_empty h, trivial⟩

theorem copyBase_clean {b url : Rec} (hb : CleanUrl b) (h : CleanUrl url) : CleanUrl (copyBase b url) :=
  { hb with fragment := h.fragment }

theorem shortenRec_clean {url u : Rec} (h : CleanUrl url) (hs : shortenRec url = some u) : CleanUrl u := by
  unfold shortenRec at hs
  split at hs
  · cases hs
  · rename_i p hp
    cases hs
    exact { h with
      segments := fun l hl q hq => by cases hl; exact h.segments p hp q (mem_shortenPath hq)
      text := fun t ht => by cases ht }

theorem clean_host_special {url : Rec} (h : CleanUrl url) (hs : Spec.isSpecial url.scheme = true) (x : Option Host) :
    CleanUrl { url with host := x } :=
  { h with host := fun d _ hn => by rw [hs] at hn; cases hn }

theorem clean_host_parsed {url : Rec} (h : CleanUrl url) {buf : Str} {x : Host} (hx : hostParse env buf (!url.isSpecial) = ⟨.ok x, []⟩) :
    CleanUrl { url with host := some x } := by
  cases hsp : url.isSpecial with
  | true => exact clean_host_special h (by rw [isSpecial_eq]; exact hsp) _
  | false =>
    refine { h with host := ?_ }
    rintro d hd -
    cases hd
    rw [hsp] at hx
    cases buf with
    | nil => cases hx; exact .nil
    | cons c t =>
      by_cases hc : c = c!"["
      · subst hc
        unfold hostParse at hx
        dsimp only at hx
        rw [if_pos rfl] at hx
        split at hx
        · cases hx
        · split at hx <;> cases hx
      · have hu := (Props.C98_opaque_host env (c :: t) (by simpa using hc)).1 ⟨_, hx⟩
        unfold hostParse at hx
        dsimp only at hx
        rw [if_neg hc, if_pos (by rfl)] at hx
        unfold parseOpaqueHost at hx
        split at hx
        · rename_i s log hp
          split at hp
          · cases hp
          · cases hp
            have := congrArg Res.res hx
            change Except.ok (Host.str _) = Except.ok (Host.str d) at this
            injection this with this
            injection this with this
            rw [← this]
            exact units_mono (encode_units (by decide) hu) fun c h => h.elim
        · cases hx

theorem sHostEnd_clean {url : Rec} (h : CleanUrl url) {buf r : Str} (hl : (hostParse env buf (!url.isSpecial)).log = []) :
    (sHostEnd env false buf r url).clean base := by
  unfold sHostEnd
  refine clean_ite trivial ?_
  rw [if_neg (by simp)]
  rcases hx : hostParse env buf (!url.isSpecial) with ⟨x, l⟩
  rw [hx] at hl
  cases hl
  cases x with
  | error err => trivial
  | ok x => exact ⟨clean_host_parsed h hx, trivial⟩

theorem filePath_clean (hb : ∀ b, base = some b → CleanUrl b) {url : Rec} (h : CleanUrl url) (hf : url.scheme = u!"file") (t : Str) :
    (sFilePath base t url).clean base := by
  have hsp : Spec.isSpecial url.scheme = true := by rw [hf]; decide
  unfold sFilePath
  cases base with
  | none => exact ⟨h, trivial⟩
  | some b =>
    have hb := hb b rfl
    have h1 : CleanUrl { url with host := b.host, path := b.path, query := b.query } :=
      { clean_host_special h hsp b.host with segments := hb.segments, text := hb.text, query := hb.query }
    refine clean_ite ?_ ⟨h, trivial⟩
    cases t with
    | nil => exact ⟨h1, trivial⟩
    | cons c cs =>
      refine clean_ite ⟨clean_query_empty h1, trivial⟩ (clean_ite ⟨clean_fragment_empty h1, trivial⟩ (clean_ite ?_ ?_))
      · dsimp only
        split
        · rename_i u hu
          exact ⟨shortenRec_clean (clean_query_none h1) hu, trivial⟩
        · trivial
      · exact ⟨{ clean_query_none h1 with
          segments := fun l hl p hp => by cases hl; cases hp
          text := fun t ht => by cases ht }, trivial⟩

theorem fileSlashPath_clean (hb : ∀ b, base = some b → CleanUrl b) {url : Rec} (h : CleanUrl url) (hf : url.scheme = u!"file") (t : Str) :
    (sFileSlashPath base t url).clean base := by
  have hsp : Spec.isSpecial url.scheme = true := by rw [hf]; decide
  unfold sFileSlashPath
  cases base with
  | none => exact ⟨h, trivial⟩
  | some b =>
    have hb := hb b rfl
    have h1 : CleanUrl { url with host := b.host } := clean_host_special h hsp b.host
    refine clean_ite ?_ ⟨h, trivial⟩
    dsimp only
    split
    · rename_i p0 l hp
      refine clean_ite ?_ ⟨h1, trivial⟩
      split
      · rename_i p hu
        refine ⟨{ h1 with
          segments := fun l' hl q hq => ?_
          text := fun t ht => by cases ht }, trivial⟩
        cases hl
        rcases List.mem_append.1 hq with hq | hq
        · exact h.segments p hu q hq
        · rw [List.mem_singleton.1 hq]
          exact hb.segments _ hp p0 (by simp)
      · trivial
    · exact ⟨h1, trivial⟩

/-- the next state, if the step records nothing -/
theorem step_clean (hb : ∀ b, base = some b → CleanUrl b) {st : PState} {i : Nat} {url : Rec}
    (hq : Quiet env .utf8 s base st i url) (h : CleanUrl url) (ha : CleanAt base st (s.drop i) url) :
    (sstep env .utf8 base none st (s.drop i) url).clean base := by
  cases st with
  | hostname => exact absurd ha (fun h => h)
  | scheme => trivial
  | eof => trivial
  | schemeStart =>
    have ha : url.host = none := ha
    have h1 : ∀ sch, CleanUrl { url with scheme := sch } := fun sch => { h with host := fun d hd => by rw [show _ = _ from ha] at hd; cases hd }
    show (sScheme base none (s.drop i) url).clean base
    unfold sScheme
    cases takeScheme (s.drop i) with
    | none => exact ⟨h, ha⟩
    | some x =>
      obtain ⟨b, r⟩ := x
      dsimp only
      rw [if_neg (by simp)]
      refine clean_ite ⟨h1 b, trivial⟩ (clean_ite (clean_ite ⟨h1 b, ha⟩ ⟨h1 b, trivial⟩) (clean_ite ⟨h1 b, trivial⟩ ⟨?_, ?_⟩))
      · exact { h1 b with
          segments := fun l hl => by cases hl
          text := fun t ht => by cases ht; exact .nil }
      · intro l hl
        cases hl
  | noScheme =>
    have ha : url.host = none := ha
    show (sNoScheme base (s.drop i) url).clean base
    unfold sNoScheme
    cases base with
    | none => trivial
    | some b =>
      have hb := hb b rfl
      refine clean_ite trivial (clean_ite ⟨?_, trivial⟩ (clean_ite ⟨h, ha⟩ ⟨h, trivial⟩))
      exact { h with
        host := fun d hd => by rw [show _ = _ from ha] at hd; cases hd
        segments := hb.segments, text := hb.text, query := hb.query
        fragment := fun f hf => by cases hf; exact .nil }
  | specialRelativeOrAuthority => exact clean_ite ⟨h, trivial⟩ ⟨h, ha⟩
  | pathOrAuthority => exact clean_ite ⟨h, trivial⟩ ⟨h, trivial⟩
  | relative =>
    have ha : url.host = none := ha
    show (sRelative base (s.drop i) url).clean base
    unfold sRelative
    cases base with
    | none => trivial
    | some b =>
      have hb := hb b rfl
      have hc := copyBase_clean hb h
      refine clean_ite trivial ?_
      cases s.drop i with
      | nil => exact ⟨hc, trivial⟩
      | cons c cs =>
        refine clean_ite ⟨?_, ?_⟩ (clean_ite ⟨clean_query_empty hc, trivial⟩ (clean_ite ⟨clean_fragment_empty hc, trivial⟩ ?_))
        · exact { h with host := fun d hd => by rw [show _ = _ from ha] at hd; cases hd }
        · intro b' hb'; cases hb'; rfl
        · dsimp only
          split
          · rename_i u hu
            exact ⟨shortenRec_clean (clean_query_none hc) hu, trivial⟩
          · trivial
  | relativeSlash =>
    have ha : ∀ b, base = some b → url.scheme = b.scheme := ha
    show (sRelativeSlash base (s.drop i) url).clean base
    unfold sRelativeSlash
    refine clean_ite ⟨h, trivial⟩ (clean_ite ⟨h, trivial⟩ ?_)
    cases base with
    | none => trivial
    | some b =>
      have hb := hb b rfl
      refine ⟨{ h with username := hb.username, password := hb.password, host := fun d hd hs => hb.host d hd ?_ }, trivial⟩
      rw [← ha b rfl]
      exact hs
  | specialAuthoritySlashes => exact clean_ite ⟨h, trivial⟩ ⟨h, trivial⟩
  | specialAuthorityIgnoreSlashes => exact ⟨h, trivial⟩
  | authority =>
    have hlog := quiet_log (by decide) hq
    change (authorityLoop url.isSpecial (s.drop i) i [] false false url []).log = [] at hlog
    rw [authorityLoop_log _ _ _ _ _ _ _ _ (by simp)] at hlog
    show (sAuthority (s.drop i) url).clean base
    unfold sAuthority
    dsimp only
    rw [splitAtLast_absent hlog.2]
    exact ⟨h, trivial⟩
  | host =>
    have hlog := quiet_log (by decide) hq
    have hst : step env .utf8 s base none .host i url = hostLoop env none (s.drop i) i [] false url := by
      show parseHost env s i url none = _
      unfold parseHost
      rw [if_neg (by simp)]
    have hok : ∃ x, (step env .utf8 s base none .host i url).res = .ok x := by
      cases hq with
      | next h1 h2 => rw [h1]; exact ⟨_, rfl⟩
    obtain ⟨x, hx⟩ := hok
    rw [hst] at hx hlog
    rw [hostLoop_log url.isSpecial _ _ _ _ _ x rfl hx, List.nil_append] at hlog
    show (sHost env none (s.drop i) url).clean base
    unfold sHost
    rw [if_neg (by simp)]
    dsimp only
    unfold sHostGo
    split
    · exact sHostEnd_clean h hlog
    · refine clean_ite (clean_ite trivial ?_) (sHostEnd_clean h hlog)
      rw [if_neg (by simp)]
      rcases hp : hostParse env (hostSpan url.isSpecial false (s.drop i)).1 (!url.isSpecial) with ⟨y, l⟩
      rw [hp] at hlog
      cases hlog
      cases y with
      | error err => trivial
      | ok y => exact ⟨clean_host_parsed h hp, trivial⟩
  | port =>
    have key : ∀ b r, (sPortEnd env false b r url).clean base := by
      intro b r
      unfold sPortEnd
      refine clean_ite ⟨h, trivial⟩ ?_
      split
      · trivial
      · exact clean_ite trivial ⟨{ h with }, trivial⟩
    show (sPort env none (s.drop i) url).clean base
    unfold sPort sPortGo
    split
    · exact key _ _
    · exact clean_ite (key _ _) trivial
  | file =>
    have h1 : CleanUrl { url with scheme := u!"file", host := some (.str []) } :=
      { h with host := fun d hd hs => by cases hd; exact .nil }
    show (sFile base (s.drop i) url).clean base
    unfold sFile
    dsimp only
    split
    · exact clean_ite ⟨h1, rfl⟩ (filePath_clean hb h1 rfl _)
    · exact filePath_clean hb h1 rfl _
  | fileSlash =>
    have ha : url.scheme = u!"file" := ha
    show (sFileSlash base (s.drop i) url).clean base
    unfold sFileSlash
    split
    · exact clean_ite ⟨h, ha⟩ (fileSlashPath_clean hb h ha _)
    · exact fileSlashPath_clean hb h ha _
  | fileHost =>
    have ha : url.scheme = u!"file" := ha
    have hsp : Spec.isSpecial url.scheme = true := by rw [ha]; decide
    show (sFileHost env none (s.drop i) url).clean base
    unfold sFileHost sFileHostEnd
    refine clean_ite ⟨h, trivial⟩ (clean_ite ⟨clean_host_special h hsp _, trivial⟩ ?_)
    split
    · trivial
    · exact ⟨clean_host_special h hsp _, trivial⟩
  | pathStart =>
    show (sPathStart none (s.drop i) url).clean base
    unfold sPathStart
    split
    · refine clean_ite ⟨h, trivial⟩ ?_
      rw [if_neg (by simp)]
      exact ⟨h, trivial⟩
    · exact clean_ite ⟨h, trivial⟩ (clean_ite ⟨h, trivial⟩ (clean_ite ⟨clean_query_empty h, trivial⟩
        (clean_ite ⟨clean_fragment_empty h, trivial⟩ ⟨h, trivial⟩)))
  | path =>
    show (sPath none (s.drop i) url).clean base
    unfold sPath
    split
    · trivial
    · rename_i p hp
      have ht := ((pathText_iff _).1 ((quiet_path rfl hp).1 hq)).1
      refine afterPath_clean (.inr rfl) { h with
        segments := fun l hl => ?_
        text := fun t ht => by cases ht }
      cases hl
      exact addPieces_units _ _ (h.segments p hp) (pathPieces_units ht)
  | opaquePath =>
    have ha : ∀ l, url.path = .list l → s.drop i = [] := ha
    have ht := ((pathText_iff _).1 ((quiet_opaque rfl).1 hq)).1
    show (sOpaquePath (s.drop i) url).clean base
    unfold sOpaquePath
    refine afterPath_clean (.inl rfl) { h with segments := fun l hl => ?_, text := fun t hl => ?_ }
    · change url.path.addText _ = _ at hl
      cases hp : url.path with
      | «opaque» x => rw [hp] at hl; cases hl
      | list x =>
        rw [hp, ha x hp] at hl
        simp [Path.addText] at hl
        subst hl
        exact h.segments x hp
    · change url.path.addText _ = _ at hl
      cases hp : url.path with
      | list x => rw [hp] at hl; cases hl
      | «opaque» x =>
        rw [hp] at hl
        cases hl
        exact units_append (h.text x hp) (encode_each_units ht)
  | query =>
    show (sQuery .utf8 none (s.drop i) url).clean base
    unfold sQuery
    dsimp only
    refine clean_ite ⟨h, trivial⟩ ?_
    split
    · trivial
    · rename_i q hqq
      have ht := ((queryText_split _).1 ((quiet_query rfl (by rw [hqq]; simp)).1 hq)).1
      have h1 : CleanUrl { url with query := some (q ++ encodeQuery .utf8 url (queryText (none : Option PState).isSome (s.drop i))) } := by
        refine { h with query := fun q' hq' => ?_ }
        cases hq'
        refine units_append (h.query q hqq) ?_
        unfold encodeQuery
        rw [ite_self]
        refine encode_units ?_ ht
        split <;> decide
      refine ⟨?_, trivial⟩
      split
      · exact h1
      · exact clean_fragment_empty h1
  | fragment =>
    show (sFragment (s.drop i) url).clean base
    unfold sFragment
    refine clean_ite ⟨h, trivial⟩ ?_
    split
    · trivial
    · rename_i f hf
      have ht := (quiet_fragment rfl (by rw [hf]; simp)).1 hq
      refine ⟨{ h with fragment := fun f' hf' => ?_ }, trivial⟩
      cases hf'
      exact units_append (h.fragment f hf) (encode_units (by decide) ht)

theorem quiet_clean (hb : ∀ b, base = some b → CleanUrl b) {st : PState} {i : Nat} {url : Rec} (hq : Quiet env .utf8 s base st i url) :
    CleanUrl url → CleanAt base st (s.drop i) url → CleanUrl (eval env .utf8 base none st (s.drop i) url).2 := by
  induction hq with
  | eof i url => intro h _; rw [eval_eof]; exact h
  | @next st st' i i' url url' hs hq ih =>
    intro h ha
    have hst : st ≠ .eof := by rintro rfl; cases hs
    have hc := step_clean hb (.next hs hq) h ha
    have ho := step_on env .utf8 s base none st i url
    rw [eval_step _ _ _ _ hst]
    rw [← ho, hs, Out.on_to] at hc ⊢
    exact ih hc.1 hc.2

/-- what is parsed without a validation error is clean -/
theorem parse_clean (hb : ∀ b, base = some b → CleanUrl b) {u : Rec} (h : basicParse env s base .utf8 = ⟨.ok (), u, []⟩) : CleanUrl u := by
  have hg := basicParse_quiet.1 ⟨u, h⟩
  have hun := hg.1
  have hev := basicParse_eval env s base .utf8 none none
  rw [h, prepared_untouched hun] at hev
  have hev : eval env .utf8 base none .schemeStart s {} = (.ok (), u) := hev.symm
  have hq : Quiet env .utf8 s base .schemeStart 0 {} := quiet_start.2 hg.2
  have h0 : CleanUrl ({} : Rec) := {
    username := rfl
    password := rfl
    host := fun d hd => (by cases hd)
    segments := fun l hl p hp => (by cases hl; cases hp)
    text := fun t ht => (by cases ht)
    query := fun q hq => (by cases hq)
    fragment := fun f hf => (by cases hf) }
  have := quiet_clean hb hq h0 rfl
  rw [List.drop_zero, hev] at this
  exact this

end

end Urlstd
