/-
The remaining states, and what the whole run of the parser gives.
-/
import Verif.Lemmas.InvStep

set_option linter.unusedSimpArgs false
set_option linter.unusedVariables false

namespace Urlstd

open Spec (IsStr)

variable {k : Bool} {env : Env} {P : Bool → Host → Prop} {base : Option Rec} {n : Nat}

/-! ### Scheme and the states before the authority -/

theorem good_scheme (hb : ∀ b, base = some b → WF k P b) {rest : Str} {url : Rec}
    (h : PInv k P base rest url .schemeStart) : (sScheme base none rest url).Good k env P base n := by
  have : url = {} := h
  subst this
  unfold sScheme
  split
  · exact good_ite (fun _ => rfl) (fun h => by simp at h)
  · rename_i b r hts
    obtain ⟨c, cs, he, hc, hcs, rfl⟩ := takeScheme_some hts
    have hsc := SchemeOK_lower hc hcs
    generalize lower (c :: cs) = sc at *
    refine good_ite (fun h => by simp at h) fun _ => good_ite (fun hf => ?_) fun hf => ?_
    · exact ⟨_, rfl⟩
    · refine good_ite (fun hsp => good_ite (fun hbs => ?_) fun _ => ?_) fun hsp => good_ite (fun _ => ?_) fun hh => ?_
      · split at hbs
        · rename_i b0
          simp only [beq_iff_eq] at hbs
          exact ⟨b0, rfl, by rw [special_eq, hbs]; exact hsp, by rw [hbs]; exact hf, by rw [hbs]⟩
        · simp at hbs
      · exact ⟨_, rfl, hsc, hf⟩
      · exact ⟨_, rfl, hsc, by simpa [special_eq] using hsp⟩
      · exact .inr ⟨_, rfl, hsc, by simpa [special_eq] using hsp, hh⟩

theorem special_ne_opaque {b : Rec} (hw : WF k P b) (hsp : b.isSpecial = true) : b.hasOpaquePath = false := by
  have hp := hw.path
  unfold PathWF at hp
  unfold Rec.hasOpaquePath
  cases hpp : b.path with
  | list p => rfl
  | «opaque» s =>
    rw [hpp] at hp
    exact absurd hp.2 (hw.auth.special hsp).1

theorem good_specialRelativeOrAuthority (hb : ∀ b, base = some b → WF k P b) {rest : Str} {url : Rec}
    (h : PInv k P base rest url .specialRelativeOrAuthority) :
    (sSpecialRelativeOrAuthority rest url).Good k env P base n := by
  obtain ⟨b, rfl, hsp, hf, rfl⟩ := h
  have hw := hb b rfl
  unfold sSpecialRelativeOrAuthority
  refine good_ite (fun _ => ?_) fun _ => ?_
  · exact ⟨_, rfl, hw.auth.scheme, hf⟩
  · exact ⟨b, _, rfl, hf, special_ne_opaque hw hsp, rfl⟩

theorem not_file_of_not_special {sc : Str} (h : isSpecialScheme sc = false) : sc ≠ u!"file" := by
  rintro rfl; exact absurd h (by decide)

theorem AuthWF_fresh {sc : Str} (hsc : SchemeOK sc) (hsp : isSpecialScheme sc = false) : AuthWF k P { scheme := sc } where
  scheme := hsc
  user := by simp
  pass := by simp
  port := by simp
  host := by simp
  special := fun h => by rw [special_eq, hsp] at h; cases h
  null := fun _ => rfl
  loose := fun _ => ⟨rfl, rfl, .inl rfl⟩
  file := fun _ h => absurd h (not_file_of_not_special hsp)

theorem good_pathOrAuthority {rest : Str} {url : Rec} (h : PInv k P base rest url .pathOrAuthority) :
    (sPathOrAuthority rest url).Good k env P base n := by
  obtain ⟨sc, rfl, hsc, hsp⟩ := h
  unfold sPathOrAuthority
  refine good_ite (fun _ => ?_) fun _ => ?_
  · exact ⟨sc, rfl, hsc, not_file_of_not_special hsp⟩
  · exact ⟨AuthWF_fresh hsc hsp, ⟨[], rfl, SegsOK_nil _⟩, by simp [QueryWF], rfl⟩

/-! ### Path -/

theorem good_pathStart {rest : Str} {url : Rec} (h : PInv k P base rest url .pathStart) :
    (sPathStart none rest url).Good k env P base n := by
  obtain ⟨ha, hp, hq, hf, hh⟩ := h
  have hpath : ∀ r, PInv k P base r url .path := fun r =>
    ⟨ha, ⟨[], hp, SegsOK_nil _⟩, by intro q hq'; rw [hq] at hq'; simp at hq', hf⟩
  have hpw : url.isSpecial = false → PathWF k url := by
    intro hs
    unfold PathWF
    rw [hp]
    exact ⟨SegsOK_nil _, fun h => (by rw [hs] at h; cases h), fun h => absurd h hh⟩
  unfold sPathStart
  cases rest with
  | nil =>
    refine good_ite (fun _ => hpath []) fun hs => good_ite (fun h => by simp at h) fun _ => ?_
    refine ⟨ha, hpw (by simpa using hs), by simp [QueryWF, hq], by simp [FragWF, hf], ?_⟩
    intro s hs; rw [hp] at hs; simp at hs
  | cons c cs =>
    refine good_ite (fun _ => hpath cs) fun _ => good_ite (fun _ => hpath []) fun hs => good_ite (fun _ => ?_) fun _ =>
      good_ite (fun _ => ?_) fun _ => hpath []
    · exact ⟨ha.congr rfl rfl rfl rfl rfl, hpw (by simpa using hs), rfl, hf⟩
    · refine ⟨⟨ha.congr rfl rfl rfl rfl rfl, hpw (by simpa using hs), by simp [QueryWF, hq], by simp [FragWF], ?_⟩,
        fun _ => ⟨_, rfl⟩⟩
      intro s hs; simp [hp] at hs

/-- after the path: the record so far is well formed apart from the tail condition -/
theorem good_afterPath {st : PState} {r : Str} {url : Rec} (ha : AuthWF k P url) (hp : PathWF k url) (hq : QueryWF url)
    (hf : url.fragment = none) (hst : r = [] → PInv k P base [] url st) (htail : url.query = none ∨ TailWF url) :
    (afterPath st r url).Good k env P base n := by
  unfold afterPath
  cases r with
  | nil => exact hst rfl
  | cons c cs =>
    refine good_ite (fun _ => ?_) fun _ => ?_
    · exact ⟨ha.congr rfl rfl rfl rfl rfl, hp, rfl, hf⟩
    · exact ⟨⟨ha.congr rfl rfl rfl rfl rfl, hp, hq, by simp [FragWF], by intro s _ _ h; simp at h⟩, fun _ => ⟨_, rfl⟩⟩

theorem good_path {rest : Str} (hr : IsStr rest) {url : Rec} (h : PInv k P base rest url .path) :
    (sPath none rest url).Good k env P base n := by
  obtain ⟨ha, ⟨p, hp, hsegs⟩, hq, hf⟩ := h
  unfold sPath
  rw [hp]
  dsimp only [Option.isSome]
  have ht : IsStr (pathText false rest) := isStr_subset hr fun c hc =>
    (List.takeWhile_prefix notQF).subset hc
  obtain ⟨hsegs', hne⟩ := hsegs.pathState ht
  rw [special_eq]
  generalize addPieces url.scheme p (pathPieces (isSpecialScheme url.scheme) (pathText false rest)) = p' at *
  have hpw : PathWF k { url with path := .list p' } := ⟨hsegs', fun _ => hne, fun _ => hne⟩
  have htail : TailWF { url with path := .list p' } := by intro s hs; simp at hs
  refine good_afterPath (ha.congr rfl rfl rfl rfl rfl) hpw hq hf (fun _ => .inl ⟨rfl, ?_⟩) (.inr htail)
  exact ⟨ha.congr rfl rfl rfl rfl rfl, hpw, hq, by simp [FragWF, hf], htail⟩

theorem notQF_hex {x : Nat} (h : x = 37 ∨ isHex x = true) : notQF x = true := by
  have : x ≠ 63 ∧ x ≠ 35 := by
    rcases h with rfl | h
    · decide
    · rw [isHex_iff] at h; omega
  simp [notQF, this.1, this.2]

/-- the encoded characters of an opaque path -/
theorem opaqueText_chars {t : Str} (ht : IsStr t) (hq : ∀ c ∈ t, notQF c = true) :
    ∀ c ∈ t.flatMap (fun c => utf8PercentEncode [c] safeC0), safeC0 c = true ∧ notQF c = true := by
  intro c hc
  rw [List.mem_flatMap] at hc
  obtain ⟨x, hx, hc⟩ := hc
  obtain ⟨h1, h2⟩ := mem_encoded safeSet_c0 (s := [x]) (fun y hy => by simp at hy; subst hy; exact ht y hx) hc
  refine ⟨h1, ?_⟩
  rcases h2 with h2 | h2
  · simp at h2; subst h2; exact hq c hx
  · exact notQF_hex h2

theorem encode1_head {x : Nat} (hx : x ≤ 0x10FFFF) :
    ∃ h t, utf8PercentEncode [x] safeC0 = h :: t ∧ (h = x ∨ h = 37) := by
  have hs : IsStr [x] := fun y hy => by simp at hy; omega
  rw [utf8PercentEncode_false]
  have hne := utf8Encode_ne_nil hs (by simp)
  have hall := fun b => utf8Encode_mem_ascii hs (b := b)
  cases hb : utf8Encode [x] with
  | nil => exact absurd hb hne
  | cons b bs =>
    simp only [List.flatMap_cons]
    unfold quoter
    split
    · rename_i hq
      refine ⟨b, _, rfl, .inl ?_⟩
      have hb128 : b < 128 := by
        simp only [quoteSafe, Bool.or_eq_true, Bool.and_eq_true, decide_eq_true_eq] at hq
        rcases hq with hq | hq
        · have := alwaysSafe_cases hq; omega
        · exact hq.1
      have := hall b hb128 (by rw [hb]; simp)
      simpa using this
    · exact ⟨37, _, rfl, .inr rfl⟩

theorem encode1_last {x : Nat} (hx : x ≤ 0x10FFFF) (hsp : x ≠ 32) :
    (utf8PercentEncode [x] safeC0).getLast? ≠ some 32 := by
  have hs : IsStr [x] := fun y hy => by simp at hy; omega
  intro h
  have hm := List.mem_of_getLast? h
  rcases mem_percentEncoded hs hm with ⟨h1, _⟩ | h | ⟨_, h⟩
  · simp at h1; exact hsp h1.symm
  · simp at h
  · simp [isHex, isDigit] at h

theorem opaqueText_head {t : Str} (ht : IsStr t) (hh : t.head? ≠ some 47) :
    (t.flatMap (fun c => utf8PercentEncode [c] safeC0)).head? ≠ some 47 := by
  cases t with
  | nil => simp
  | cons x xs =>
    obtain ⟨h, r, he, hx⟩ := encode1_head (ht x (by simp))
    rw [List.flatMap_cons, he]
    simp only [List.head?_cons, ne_eq, Option.some.injEq, List.cons_append] at hh ⊢
    rcases hx with rfl | rfl
    · exact hh
    · decide

theorem eq_nil_or_snoc (t : Str) : t = [] ∨ ∃ xs x, t = xs ++ [x] := by
  rcases List.eq_nil_or_concat t with h | ⟨xs, x, h⟩
  · exact .inl h
  · exact .inr ⟨xs, x, by rw [h, List.concat_eq_append]⟩

theorem opaqueText_last {t : Str} (ht : IsStr t) (hl : t.getLast? ≠ some 32) :
    (t.flatMap (fun c => utf8PercentEncode [c] safeC0)).getLast? ≠ some 32 := by
  rcases eq_nil_or_snoc t with rfl | ⟨xs, x, rfl⟩
  · simp
  · rw [List.flatMap_append, List.getLast?_append]
    simp only [List.flatMap_cons, List.flatMap_nil, List.append_nil]
    have hx := ht x (by simp)
    obtain ⟨h, r, he, _⟩ := encode1_head hx
    have := encode1_last hx (by intro h; apply hl; simp [h])
    rw [he] at this ⊢
    cases hg : (h :: r).getLast? with
    | none => simp at hg
    | some y => rw [hg] at this; simpa using this

theorem good_opaquePath {rest : Str} (hr : RestOK rest) {url : Rec} (h : PInv k P base rest url .opaquePath) :
    (sOpaquePath rest url).Good k env P base n := by
  unfold sOpaquePath
  rcases h with ⟨rfl, hw⟩ | ⟨sc, rfl, hsc, hsp, hh⟩
  · simp only [List.takeWhile_nil, List.flatMap_nil, List.dropWhile_nil, addText_nil]
    exact hw
  · have htq : ∀ c ∈ rest.takeWhile notQF, notQF c = true := fun c hc => takeWhile_mem hc
    have ht : IsStr (rest.takeWhile notQF) := isStr_subset hr.str fun c hc => (List.takeWhile_prefix notQF).subset hc
    have hth : (rest.takeWhile notQF).head? ≠ some 47 := by
      cases rest with
      | nil => simp
      | cons c cs =>
        rw [List.takeWhile_cons]
        split
        · simpa using hh
        · simp
    have hlast : rest.dropWhile notQF = [] → (rest.takeWhile notQF).getLast? ≠ some 32 := by
      intro hd
      have := List.takeWhile_append_dropWhile (p := notQF) (l := rest)
      rw [hd, List.append_nil] at this
      rw [this]; exact hr.last
    generalize rest.takeWhile notQF = t at *
    generalize rest.dropWhile notQF = r at *
    have hpath : (Path.opaque []).addText (t.flatMap fun c => utf8PercentEncode [c] safeC0) =
        .opaque (t.flatMap fun c => utf8PercentEncode [c] safeC0) := by simp [Path.addText]
    dsimp only
    rw [hpath]
    have hpw : PathWF k { scheme := sc, path := .opaque (t.flatMap fun c => utf8PercentEncode [c] safeC0) } :=
      ⟨⟨opaqueText_chars ht htq, opaqueText_head ht hth⟩, rfl⟩
    have ha : AuthWF k P { scheme := sc, path := .opaque (t.flatMap fun c => utf8PercentEncode [c] safeC0) } :=
      (AuthWF_fresh hsc hsp).congr rfl rfl rfl rfl rfl
    refine good_afterPath ha hpw (by simp [QueryWF]) rfl (fun hr0 => ?_) (.inl rfl)
    refine ⟨ha, hpw, by simp [QueryWF], by simp [FragWF], ?_⟩
    intro s hs _ _
    simp only [Path.opaque.injEq] at hs
    subst hs
    exact opaqueText_last ht (hlast hr0)

/-! ### Query and fragment -/

theorem good_query {e : Encoding} (he : EncOK e) {rest : Str} (hr : IsStr rest) {url : Rec}
    (h : PInv k P base rest url .query) : (sQuery e none rest url).Good k env P base n := by
  obtain ⟨ha, hp, hq, hf⟩ := h
  unfold sQuery
  dsimp only [Option.isSome]
  have ht : IsStr (queryText false rest) := isStr_subset hr fun c hc =>
    (List.takeWhile_prefix notHash).subset hc
  generalize queryText false rest = t at *
  generalize queryRest false rest = r at *
  refine good_ite (fun _ => ?_) fun _ => ?_
  · refine ⟨⟨ha, hp, ?_, by simp [FragWF, hf], ?_⟩, by simp⟩
    · intro q hq'; rw [hq] at hq'; simp at hq'; subst hq'; simp
    · intro s _ h; rw [hq] at h; simp at h
  · rw [hq]
    have hqw : ∀ f, QueryWF { url with query := some ([] ++ encodeQuery e url t), fragment := f } := by
      intro f q hq' c hc
      simp only [List.nil_append, Option.some.injEq] at hq'
      subst hq'
      exact encodeQuery_safe he url ht c hc
    dsimp only
    split
    · rename_i hr0
      refine ⟨⟨ha.congr rfl rfl rfl rfl rfl, hp, hqw _, by simp [FragWF, hf], by intro s _ h; simp at h⟩, ?_⟩
      intro h
      exfalso; apply h
      cases r with
      | nil => rfl
      | cons a b => simp at hr0
    · exact ⟨⟨ha.congr rfl rfl rfl rfl rfl, hp, hqw _, by simp [FragWF], by intro s _ h; simp at h⟩, fun _ => ⟨_, rfl⟩⟩

theorem good_fragment {rest : Str} (hr : IsStr rest) {url : Rec} (h : PInv k P base rest url .fragment) :
    (sFragment rest url).Good k env P base n := by
  obtain ⟨hw, hfr⟩ := h
  unfold sFragment
  refine good_ite (fun _ => hw) fun hne => ?_
  obtain ⟨f, hf⟩ := hfr (by simpa using hne)
  rw [hf]
  refine ⟨hw.auth.congr rfl rfl rfl rfl rfl, hw.path, hw.query, ?_, by intro s _ _ h; simp at h⟩
  intro g hg c hc
  simp only [Option.some.injEq] at hg
  subst hg
  rcases List.mem_append.1 hc with hc | hc
  · exact hw.frag f hf c hc
  · exact encoded_safe safeSet_fragment hr c hc

/-! ### The run -/

theorem good_step (hP : HostSpec env P) {e : Encoding} (he : EncOK e) (hb : ∀ b, base = some b → WF k P b)
    {rest : Str} (hr : RestOK rest) (hn : rest.length ≤ n) {url : Rec} {st : PState} (hst : st ≠ .eof)
    (h : PInv k P base rest url st) : (sstep env e base none st rest url).Good k env P base n := by
  cases st
  case eof => exact absurd rfl hst
  case scheme => exact h.elim
  case hostname => exact h.elim
  case authority => exact good_authority hr.str h
  case fileHost => exact good_fileHost hP hr.str hn h
  case fileSlash => exact good_fileSlash hP hb hr.str h
  case file => exact good_file hP hb hr.str h
  case fragment => exact good_fragment hr.str h
  case host => exact good_host hP hr.str hn h
  case noScheme => exact good_noScheme hb h
  case opaquePath => exact good_opaquePath hr h
  case pathOrAuthority => exact good_pathOrAuthority h
  case pathStart => exact good_pathStart h
  case path => exact good_path hr.str h
  case port => exact good_port hn h
  case query => exact good_query he hr.str h
  case relativeSlash => exact good_relativeSlash hb h
  case relative => exact good_relative hb hr.str h
  case schemeStart => exact good_scheme hb h
  case specialAuthorityIgnoreSlashes => exact h
  case specialAuthoritySlashes =>
    show (sSpecialAuthoritySlashes rest url).Good k env P base n
    unfold sSpecialAuthoritySlashes
    exact good_ite (fun _ => h) fun _ => h
  case specialRelativeOrAuthority => exact good_specialRelativeOrAuthority hb h

/-- from a state whose invariant holds, the parser returns a well-formed record or raises an
allowed exception -/
theorem eval_wf (hP : HostSpec env P) {e : Encoding} (he : EncOK e) (hb : ∀ b, base = some b → WF k P b) (m : Nat) :
    ∀ (st : PState) (rest : Str) (url : Rec), st.rank ≤ m → RestOK rest → rest.length ≤ n → PInv k P base rest url st →
      match eval env e base none st rest url with
      | (.ok _, u) => WF k P u
      | (.error err, _) => ParseErr env n err := by
  induction m with
  | zero =>
    intro st rest url hk hr hn h
    have := rank_zero (Nat.le_zero.1 hk)
    subst this
    rw [eval_eof]; exact h
  | succ m ih =>
    intro st rest url hk hr hn h
    by_cases hst : st = .eof
    · subst hst; rw [eval_eof]; exact h
    · rw [eval_step env e base none hst]
      have hg := good_step hP he hb hr hn hst h
      have hs := sstep_suf env e base none st rest url
      have hl := sstep_below env e base none st rest url
      cases ho : sstep env e base none st rest url with
      | fail err u => rw [ho] at hg; exact hg
      | to st' r u =>
        rw [ho] at hg hs hl
        have hl : st'.rank < st.rank := hl
        have hs : r <:+ rest := hs
        exact ih st' r u (by omega) (hr.suffix hs) (by have := hs.length_le; omega) hg

/-! ### The prepared input -/

theorem removeTabNewline_eq (s : Str) : removeTabNewline s = s.filter (fun c => !isTabNewline c) := rfl

theorem stripBoth_last (p : Nat → Bool) (s : Str) : ∀ c, (stripBoth p s).getLast? = some c → p c = false := by
  intro c hc
  unfold stripBoth at hc
  rw [List.getLast?_reverse] at hc
  have h := List.head?_dropWhile_not p (s.dropWhile p).reverse
  rw [hc] at h
  simpa using h

theorem stripBoth_subset (p : Nat → Bool) (s : Str) : ∀ c ∈ stripBoth p s, c ∈ s := by
  intro c hc
  unfold stripBoth at hc
  rw [List.mem_reverse] at hc
  have := (List.dropWhile_suffix p).subset hc
  rw [List.mem_reverse] at this
  exact (List.dropWhile_suffix p).subset this

theorem prepared_ok {s : Str} (hs : IsStr s) : RestOK (prepared s none) := by
  unfold prepared
  rw [removeTabNewline_eq]
  dsimp only
  refine ⟨fun c hc => hs c (stripBoth_subset _ _ c ((List.mem_filter.1 hc).1)), ?_⟩
  have hlast := stripBoth_last isC0OrSpace s
  generalize stripBoth isC0OrSpace s = t at *
  rcases eq_nil_or_snoc t with rfl | ⟨xs, x, rfl⟩
  · simp
  · have hx : isC0OrSpace x = false := hlast x (by simp)
    have h20 : ¬ x ≤ 32 := by simpa [isC0OrSpace] using hx
    have hx' : isTabNewline x = false := by
      simp only [isTabNewline, Bool.or_eq_false_iff, beq_eq_false_iff_ne]
      omega
    rw [List.filter_append, List.getLast?_append]
    simp only [List.filter_cons, hx', Bool.not_false, if_true, List.filter_nil]
    simp
    omega

theorem prepared_length (s : Str) : (prepared s none).length ≤ s.length := by
  unfold prepared
  rw [removeTabNewline_eq]
  dsimp only
  refine Nat.le_trans (List.length_filter_le _ _) ?_
  unfold stripBoth
  rw [List.length_reverse]
  refine Nat.le_trans (dropWhile_length _ _) ?_
  rw [List.length_reverse]
  exact dropWhile_length _ _

/-- `BasicURLParser.parse(s, base=base, encoding=e)` -/
theorem basicParse_wf (hP : HostSpec env P) {e : Encoding} (he : EncOK e) (hb : ∀ b, base = some b → WF k P b)
    {s : Str} (hs : IsStr s) :
    match (basicParse env s base e).toExcept with
    | .ok u => WF k P u
    | .error err => ParseErr env s.length err := by
  rw [basicParse_toExcept]
  have := eval_wf (n := s.length) hP he hb 20 .schemeStart (prepared s none) {} (by decide) (prepared_ok hs)
    (prepared_length s) rfl
  unfold Fin.toExcept
  split at this
  · rename_i heq; rw [heq]; exact this
  · rename_i heq; rw [heq]; exact this

end Urlstd
