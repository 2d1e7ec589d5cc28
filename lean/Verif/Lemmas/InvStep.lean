/-
Every step of the parser without state override keeps the invariant, or raises.
-/
import Verif.Lemmas.Inv

set_option linter.unusedSimpArgs false
set_option linter.unusedVariables false

namespace Urlstd

open Spec (IsStr)

variable {k : Bool} {env : Env} {P : Bool → Host → Prop} {base : Option Rec} {n : Nat}

theorem special_file : isSpecialScheme u!"file" = true := by decide

theorem special_eq (u : Rec) : u.isSpecial = isSpecialScheme u.scheme := rfl

/-! ### Authority and host -/

theorem isStr_subset {s t : Str} (h : IsStr s) (hs : ∀ c ∈ t, c ∈ s) : IsStr t := fun c hc => h c (hs c hc)

theorem good_authority {rest : Str} (hr : IsStr rest) {url : Rec} (h : PInv k P base rest url .authority) :
    (sAuthority rest url).Good k env P base n := by
  obtain ⟨sc, rfl, hsc, hf⟩ := h
  unfold sAuthority
  dsimp only
  split
  · exact ⟨sc, [], [], rfl, hsc, hf, by simp, by simp, by simp⟩
  · rename_i ui hh hsp
    refine good_ite (fun _ => .inl rfl) fun hne => ?_
    have h1 := splitAtLast_eq hsp
    have hui : IsStr ui := isStr_subset hr fun c hc => by
      have : c ∈ rest.takeWhile (notEnd (isSpecialScheme sc)) := by rw [special_eq] at h1; rw [h1]; simp [hc]
      exact (List.takeWhile_prefix _).subset this
    have hhead : ∃ c cs, hh ++ rest.dropWhile (notEnd (isSpecialScheme sc)) = c :: cs ∧
        notEnd (isSpecialScheme sc) c = true := by
      cases hh with
      | nil => simp at hne
      | cons c cs =>
        refine ⟨c, cs ++ rest.dropWhile (notEnd (isSpecialScheme sc)), by simp, ?_⟩
        have : c ∈ rest.takeWhile (notEnd (isSpecialScheme sc)) := by rw [special_eq] at h1; rw [h1]; simp
        exact takeWhile_mem this
    unfold addCreds
    split
    · refine ⟨sc, _, _, rfl, hsc, hf, ?_, ?_, fun _ => hhead⟩
      · intro c hc; exact encoded_safe safeSet_userinfo hui c (by simpa using hc)
      · intro c hc; simp at hc
    · rename_i a b hab
      have := splitAtFirst_eq hab
      have ha : IsStr a := isStr_subset hui fun c hc => by rw [this]; simp [hc]
      have hb : IsStr b := isStr_subset hui fun c hc => by rw [this]; simp [hc]
      refine ⟨sc, _, _, rfl, hsc, hf, ?_, ?_, fun _ => hhead⟩
      · intro c hc
        exact encoded_safe safeSet_userinfo ha c (by simpa using hc)
      · intro c hc
        exact encoded_safe safeSet_userinfo hb c (by simpa using hc)

theorem AuthWF_host {sc us pw : Str} {h : Host} (hsc : SchemeOK sc) (hf : sc ≠ u!"file")
    (hus : ∀ c ∈ us, safeUserinfo c = true) (hpw : ∀ c ∈ pw, safeUserinfo c = true)
    (hP : P (!isSpecialScheme sc) h)
    (he : h = .str [] → us = [] ∧ pw = [] ∧ isSpecialScheme sc = false) :
    AuthWF k P { scheme := sc, username := us, password := pw, host := some h } where
  scheme := hsc
  user := hus
  pass := hpw
  port := by simp
  host := by intro h' hh; simp at hh; subst hh; exact hP
  special := by
    intro hs
    refine ⟨by simp, fun hh => ?_⟩
    simp only [Option.some.injEq] at hh
    have := (he hh).2.2
    rw [special_eq] at hs
    simp only at hs
    rw [hs] at this; cases this
  null := by simp
  loose := by
    rintro (hh | hh | hh)
    · simp at hh
    · simp only [Option.some.injEq] at hh; exact ⟨(he hh).1, (he hh).2.1, .inl rfl⟩
    · exact absurd hh hf
  file := fun _ hh => absurd hh hf

theorem hostSpan_ne_nil {sp : Bool} {rest : Str} {c : Nat} {cs : Str} (hr : rest = c :: cs) (hc : notEnd sp c = true) :
    (hostSpan sp false rest).1 ≠ [] ∨ ∃ t, (hostSpan sp false rest).2 = 58 :: t := by
  subst hr
  unfold hostSpan
  simp only [notEnd, Bool.not_eq_true'] at hc
  by_cases h58 : c = 58
  · subst h58; right; exact ⟨cs, by simp⟩
  · left; rw [if_neg (by simp [h58, hc])]; simp

theorem good_host (hP : HostSpec env P) {rest : Str} (hr : IsStr rest) (hn : rest.length ≤ n) {url : Rec}
    (h : PInv k P base rest url .host) : (sHost env none rest url).Good k env P base n := by
  obtain ⟨sc, us, pw, rfl, hsc, hf, hus, hpw, hcr⟩ := h
  unfold sHost
  refine good_ite (fun h => by simp at h) fun _ => ?_
  dsimp only [special_eq]
  have hpre := hostSpan_prefix (isSpecialScheme sc) false rest
  have hcr' : us ≠ [] ∨ pw ≠ [] → (hostSpan (isSpecialScheme sc) false rest).1 ≠ [] ∨
      ∃ t, (hostSpan (isSpecialScheme sc) false rest).2 = 58 :: t := fun hh => by
    obtain ⟨c, cs, h1, h2⟩ := hcr hh
    exact hostSpan_ne_nil h1 h2
  have hb : IsStr (hostSpan (isSpecialScheme sc) false rest).1 := isStr_subset hr fun c hc => hpre.subset hc
  have hlen := hpre.length_le
  generalize (hostSpan (isSpecialScheme sc) false rest).1 = b at *
  generalize (hostSpan (isSpecialScheme sc) false rest).2 = r at *
  have hend : ∀ r', (us ≠ [] ∨ pw ≠ [] → b ≠ []) →
      (sHostEnd env false b r' { scheme := sc, username := us, password := pw }).Good k env P base n := by
    intro r' hcb
    unfold sHostEnd
    refine good_ite (fun _ => .inl rfl) fun hsb => good_ite (fun h => by simp at h) fun _ => ?_
    split
    · rename_i e he
      exact (hostParse_err hb he).mono (by omega)
    · rename_i h he
      refine ⟨AuthWF_host hsc hf hus hpw (hP b _ _ hb he) ?_, rfl, rfl, rfl, by simp⟩
      intro hh
      have hb0 : b = [] := by
        cases b with
        | nil => rfl
        | cons x xs => exact absurd hh (hostParse_ne hb (by simp) he)
      subst hb0
      refine ⟨?_, ?_, ?_⟩
      · cases us with
        | nil => rfl
        | cons x xs => exact absurd rfl (hcb (.inl (by simp)))
      · cases pw with
        | nil => rfl
        | cons x xs => exact absurd rfl (hcb (.inr (by simp)))
      · simpa [special_eq] using hsb
  unfold sHostGo
  split
  · exact hend [] fun hh => (hcr' hh).elim id fun ⟨t, ht⟩ => by simp at ht
  · rename_i c cs
    refine good_ite (fun hc => ?_) fun hc => ?_
    · refine good_ite (fun _ => .inl rfl) fun hne => good_ite (fun h => by simp at h) fun _ => ?_
      split
      · rename_i e he
        exact (hostParse_err hb he).mono (by omega)
      · rename_i h he
        have hh : h ≠ .str [] := hostParse_ne hb (by simpa using hne) he
        exact ⟨AuthWF_host hsc hf hus hpw (hP b _ _ hb he) (fun h => absurd h hh), rfl, rfl, rfl, hf,
          by simp, by simpa using hh⟩
    · refine hend (c :: cs) fun hh => (hcr' hh).elim id fun ⟨t, ht⟩ => ?_
      simp only [List.cons.injEq] at ht
      exact absurd ht.1 hc

theorem good_port {rest : Str} (hn : rest.length ≤ n) {url : Rec}
    (h : PInv k P base rest url .port) : (sPort env none rest url).Good k env P base n := by
  obtain ⟨ha, hp, hq, hfr, hf, hh, hh0⟩ := h
  have hend : ∀ r', (sPortEnd env false (rest.takeWhile isDigit) r' url).Good k env P base n := by
    intro r'
    unfold sPortEnd
    refine good_ite (fun _ => ⟨ha, hp, hq, hfr, hh⟩) fun hne => ?_
    split
    · rename_i hv
      have := pyInt_digits_none (fun c hc => takeWhile_mem hc) (by simpa using hne) hv
      have hl : (rest.takeWhile isDigit).length ≤ rest.length := (List.takeWhile_prefix _).length_le
      exact .inr ⟨rfl, this.1, .inl (by omega)⟩
    · rename_i v hv
      refine good_ite (fun _ => .inl rfl) fun hle => ?_
      refine ⟨⟨ha.scheme, ha.user, ha.pass, ?_, ha.host, ha.special, fun h => absurd h hh, ?_, ha.file⟩, hp, hq, hfr, hh⟩
      · intro p hp
        dsimp only at hp
        split at hp
        · simp at hp
        · rename_i hd
          simp only [Option.some.injEq] at hp
          subst hp
          exact ⟨by omega, by simpa using hd⟩
      · rintro (h1 | h1 | h1)
        · exact absurd h1 hh
        · exact absurd h1 hh0
        · exact absurd h1 hf
  unfold sPort sPortGo
  split
  · exact hend []
  · exact good_ite (fun _ => hend _) fun _ => .inl rfl

/-! ### File -/

theorem AuthWF_file (hP : P false (.str [])) : AuthWF k P { scheme := u!"file", host := some (.str []) } where
  scheme := SchemeOK_file
  user := by simp
  pass := by simp
  port := by simp
  host := by intro h hh; simp at hh; subst hh; exact hP
  special := fun _ => ⟨by simp, fun _ => rfl⟩
  null := fun _ => rfl
  loose := fun _ => ⟨rfl, rfl, .inl rfl⟩
  file := by simp

theorem hostSpec_empty (hP : HostSpec env P) (m : Bool) : P m (.str []) :=
  hP [] m (.str []) (by intro c hc; simp at hc) rfl

theorem AuthWF_fileHost {b : Rec} (hb : AuthWF k P b) (hf : b.scheme = u!"file") :
    AuthWF k P { scheme := u!"file", host := b.host } where
  scheme := SchemeOK_file
  user := by simp
  pass := by simp
  port := by simp
  host := by
    intro h hh
    have := hb.host h hh
    rwa [special_eq, hf] at this
  special := fun _ => ⟨(hb.special (by rw [special_eq, hf]; decide)).1, fun _ => rfl⟩
  null := fun _ => rfl
  loose := fun _ => ⟨rfl, rfl, .inl rfl⟩
  file := fun hk _ => hb.file hk hf

/-- the authority part only depends on scheme, credentials, host and port -/
theorem AuthWF.congr {u v : Rec} (h : AuthWF k P u) (h1 : v.scheme = u.scheme) (h2 : v.username = u.username)
    (h3 : v.password = u.password) (h4 : v.host = u.host) (h5 : v.port = u.port) : AuthWF k P v := by
  obtain ⟨a1, a2, a3, a4, a5, a6, a7, a8, a9⟩ := h
  have hs : v.isSpecial = u.isSpecial := by rw [special_eq, special_eq, h1]
  exact ⟨h1 ▸ a1, h2 ▸ a2, h3 ▸ a3, by rw [h1, h5]; exact a4, by rw [h4, hs]; exact a5, by rw [h4, h1, hs]; exact a6,
    by rw [h4, h5]; exact a7,
    by rw [h4, h1, h2, h3, h5]; exact a8, by rw [h1, h4]; exact a9⟩

theorem file_path_list {b : Rec} (hb : WF k P b) (hf : b.scheme = u!"file") :
    ∃ p, b.path = .list p ∧ SegsOK k u!"file" p ∧ p ≠ [] := by
  have hsp : b.isSpecial = true := by rw [special_eq, hf]; decide
  have hp := hb.path
  unfold PathWF at hp
  cases hpp : b.path with
  | list p =>
    rw [hpp] at hp
    exact ⟨p, rfl, hf ▸ hp.1, hp.2.1 hsp⟩
  | «opaque» s =>
    rw [hpp] at hp
    exact absurd hp.2 (hb.auth.special hsp).1

theorem query_congr {u v : Rec} (h : QueryWF u) (h1 : v.scheme = u.scheme) (h2 : v.query = u.query) : QueryWF v := by
  unfold QueryWF
  rw [special_eq, h1, h2]; exact h

theorem good_filePath (hP : HostSpec env P) (hb : ∀ b, base = some b → WF k P b) {rest : Str} (hr : IsStr rest) :
    (sFilePath base rest { scheme := u!"file", host := some (.str []) }).Good k env P base n := by
  have hfresh : PInv k P base rest { scheme := u!"file", host := some (.str []) } .path :=
    ⟨AuthWF_file (hostSpec_empty hP _), ⟨[], rfl, SegsOK_nil _⟩, by simp [QueryWF], rfl⟩
  unfold sFilePath
  split
  · exact hfresh
  · rename_i b
    have hw := hb b rfl
    refine good_ite (fun hf => ?_) fun _ => hfresh
    obtain ⟨p, hp, hsegs, hne⟩ := file_path_list hw hf
    have ha := AuthWF_fileHost hw.auth hf
    have hq : ∀ q, b.query = some q → ∀ c ∈ q, querySafe true c = true := by
      have := hw.query
      unfold QueryWF at this
      rw [special_eq, hf] at this
      exact this
    cases rest with
    | nil =>
      exact ⟨ha.congr rfl rfl rfl rfl rfl, ⟨p, hp, hsegs⟩, hq, rfl⟩
    | cons c cs =>
      refine good_ite (fun _ => ?_) fun _ => good_ite (fun _ => ?_) fun _ => good_ite (fun _ => ?_) fun _ => ?_
      · refine ⟨ha.congr rfl rfl rfl rfl rfl, ?_, rfl, rfl⟩
        unfold PathWF
        dsimp only
        rw [hp]
        exact ⟨hsegs, fun _ => hne, fun _ => hne⟩
      · refine ⟨⟨ha.congr rfl rfl rfl rfl rfl, ?_, hq, by simp [FragWF], ?_⟩, fun _ => ⟨_, rfl⟩⟩
        · unfold PathWF
          dsimp only
          rw [hp]
          exact ⟨hsegs, fun _ => hne, fun _ => hne⟩
        · intro s _ _ h; simp at h
      · unfold shortenRec
        dsimp only
        rw [hp]
        exact ⟨ha.congr rfl rfl rfl rfl rfl, ⟨_, rfl, hsegs.shorten⟩, by simp [QueryWF], rfl⟩
      · exact ⟨ha.congr rfl rfl rfl rfl rfl, ⟨_, rfl, SegsOK_nil _⟩, by simp [QueryWF], rfl⟩

theorem good_file (hP : HostSpec env P) (hb : ∀ b, base = some b → WF k P b) {rest : Str} (hr : IsStr rest) {url : Rec}
    (h : PInv k P base rest url .file) : (sFile base rest url).Good k env P base n := by
  obtain ⟨sc, rfl⟩ := h
  unfold sFile
  cases rest with
  | nil => exact good_filePath hP hb hr
  | cons c cs => exact good_ite (fun _ => rfl) fun _ => good_filePath hP hb hr

theorem good_fileSlashPath (hP : HostSpec env P) (hb : ∀ b, base = some b → WF k P b) {rest : Str} (hr : IsStr rest) :
    (sFileSlashPath base rest { scheme := u!"file", host := some (.str []) }).Good k env P base n := by
  have hfresh : PInv k P base rest { scheme := u!"file", host := some (.str []) } .path :=
    ⟨AuthWF_file (hostSpec_empty hP _), ⟨[], rfl, SegsOK_nil _⟩, by simp [QueryWF], rfl⟩
  unfold sFileSlashPath
  split
  · exact hfresh
  · rename_i b
    have hw := hb b rfl
    refine good_ite (fun hf => ?_) fun _ => hfresh
    obtain ⟨p, hp, hsegs, hne⟩ := file_path_list hw hf
    have ha := AuthWF_fileHost hw.auth hf
    have hfresh' : PInv k P (some b) rest { scheme := u!"file", host := b.host } .path :=
      ⟨ha, ⟨[], rfl, SegsOK_nil _⟩, by simp [QueryWF], rfl⟩
    rw [hp]
    cases p with
    | nil => exact absurd rfl hne
    | cons p0 ps =>
      dsimp only
      refine good_ite (fun hn => ?_) fun _ => hfresh'
      simp only [Bool.and_eq_true] at hn
      refine ⟨ha.congr rfl rfl rfl rfl rfl, ⟨_, rfl, ?_⟩, by simp [QueryWF], rfl⟩
      exact (SegsOK_nil _).snoc (hsegs.segs p0 (by simp)) (fun _ _ _ => hn.2)

theorem good_fileSlash (hP : HostSpec env P) (hb : ∀ b, base = some b → WF k P b) {rest : Str} (hr : IsStr rest) {url : Rec}
    (h : PInv k P base rest url .fileSlash) : (sFileSlash base rest url).Good k env P base n := by
  have : url = { scheme := u!"file", host := some (.str []) } := h
  subst this
  unfold sFileSlash
  cases rest with
  | nil => exact good_fileSlashPath hP hb hr
  | cons c cs => exact good_ite (fun _ => rfl) fun _ => good_fileSlashPath hP hb hr

theorem good_fileHost (hP : HostSpec env P) {rest : Str} (hr : IsStr rest) (hn : rest.length ≤ n) {url : Rec}
    (h : PInv k P base rest url .fileHost) : (sFileHost env none rest url).Good k env P base n := by
  have : url = { scheme := u!"file", host := some (.str []) } := h
  subst this
  unfold sFileHost
  have hpre : rest.takeWhile notFileHostEnd <+: rest := List.takeWhile_prefix _
  have hb : IsStr (rest.takeWhile notFileHostEnd) := isStr_subset hr fun c hc => hpre.subset hc
  have hlen := hpre.length_le
  generalize rest.takeWhile notFileHostEnd = b at *
  generalize rest.dropWhile notFileHostEnd = r at *
  unfold sFileHostEnd
  refine good_ite (fun _ => ?_) fun _ => good_ite (fun _ => ?_) fun hne => ?_
  · exact ⟨AuthWF_file (hostSpec_empty hP _), ⟨[], rfl, SegsOK_nil _⟩, by simp [QueryWF], rfl⟩
  · exact ⟨AuthWF_file (hostSpec_empty hP _), rfl, rfl, rfl, by simp⟩
  · split
    · rename_i e he
      exact (hostParse_err hb he).mono (by omega)
    · rename_i h he
      have hPh : P false h := hP b _ _ hb he
      refine ⟨⟨SchemeOK_file, by simp, by simp, by simp, ?_, fun _ => ⟨by simp, fun _ => rfl⟩, fun _ => rfl,
        fun _ => ⟨rfl, rfl, .inl rfl⟩, ?_⟩,
        rfl, rfl, rfl, by simp⟩
      · intro h' hh
        simp only [Option.some.injEq] at hh
        subst hh
        split
        · exact hostSpec_empty hP _
        · exact hPh
      · intro _ _ hh
        simp only [Option.some.injEq] at hh
        split at hh
        · simp at hh
        · rename_i hl; exact hl hh

/-! ### Relative references -/

theorem good_noScheme (hb : ∀ b, base = some b → WF k P b) {rest : Str} {url : Rec}
    (h : PInv k P base rest url .noScheme) : (sNoScheme base rest url).Good k env P base n := by
  have : url = {} := h
  subst this
  unfold sNoScheme
  split
  · exact .inl rfl
  · rename_i b
    have hw := hb b rfl
    refine good_ite (fun _ => .inl rfl) fun _ => good_ite (fun ho => ?_) fun ho => good_ite (fun hf => ?_) fun hf => ?_
    · have hp := hw.path
      unfold PathWF at hp
      unfold Rec.hasOpaquePath at ho
      cases hpp : b.path with
      | list p => rw [hpp] at ho; simp at ho
      | «opaque» s =>
        rw [hpp] at hp
        have hbare := hw.auth.loose (.inl hp.2)
        refine ⟨⟨hw.auth.congr rfl hbare.1.symm hbare.2.1.symm hp.2.symm (hw.auth.null hp.2).symm, ?_, ?_, by simp [FragWF], ?_⟩,
          fun _ => ⟨_, rfl⟩⟩
        · unfold PathWF
          dsimp only
          exact ⟨hp.1, rfl⟩
        · exact query_congr hw.query rfl rfl
        · intro s _ _ h; simp at h
    · exact ⟨b, [], rfl, hf, by simpa using ho, rfl⟩
    · exact ⟨[], rfl⟩

theorem good_relative (hb : ∀ b, base = some b → WF k P b) {rest : Str} (hr : IsStr rest) {url : Rec}
    (h : PInv k P base rest url .relative) : (sRelative base rest url).Good k env P base n := by
  obtain ⟨b, sc, rfl, hf, ho, rfl⟩ := h
  have hw := hb b rfl
  have hp := hw.path
  unfold PathWF at hp
  unfold Rec.hasOpaquePath at ho
  have hpath : ∃ p, b.path = .list p := by
    cases hpp : b.path with
    | list p => exact ⟨p, rfl⟩
    | «opaque» s => rw [hpp] at ho; simp at ho
  obtain ⟨p, hpp⟩ := hpath
  rw [hpp] at hp
  have ha : ∀ q f pa, AuthWF k P { copyBase b { scheme := sc } with query := q, fragment := f, path := pa } := fun q f pa =>
    hw.auth.congr rfl rfl rfl rfl rfl
  unfold sRelative
  dsimp only
  refine good_ite (fun h => absurd h hf) fun _ => ?_
  cases rest with
  | nil =>
    refine ⟨hw.auth.congr rfl rfl rfl rfl rfl, hw.path, query_congr hw.query rfl rfl, by simp [FragWF, copyBase], ?_⟩
    intro s hs; simp [copyBase, hpp] at hs
  | cons c cs =>
    refine good_ite (fun _ => ?_) fun _ => good_ite (fun _ => ?_) fun _ => good_ite (fun _ => ?_) fun _ => ?_
    · refine ⟨b, rfl, hf, ?_, rfl⟩
      unfold Rec.hasOpaquePath; rw [hpp]
    · exact ⟨hw.auth.congr rfl rfl rfl rfl rfl, hw.path, rfl, rfl⟩
    · refine ⟨⟨hw.auth.congr rfl rfl rfl rfl rfl, hw.path, query_congr hw.query rfl rfl, by simp [FragWF], ?_⟩,
        fun _ => ⟨_, rfl⟩⟩
      intro s hs; simp [copyBase, hpp] at hs
    · unfold shortenRec copyBase
      dsimp only
      rw [hpp]
      exact ⟨hw.auth.congr rfl rfl rfl rfl rfl, ⟨_, rfl, hp.1.shorten⟩, by simp [QueryWF], rfl⟩

theorem good_relativeSlash (hb : ∀ b, base = some b → WF k P b) {rest : Str} {url : Rec}
    (h : PInv k P base rest url .relativeSlash) : (sRelativeSlash base rest url).Good k env P base n := by
  obtain ⟨b, rfl, hf, ho, rfl⟩ := h
  have hw := hb b rfl
  unfold sRelativeSlash
  refine good_ite (fun _ => ?_) fun _ => good_ite (fun _ => ?_) fun _ => ?_
  · exact ⟨_, rfl, hw.auth.scheme, hf⟩
  · exact ⟨_, rfl, hw.auth.scheme, hf⟩
  · exact ⟨hw.auth.congr rfl rfl rfl rfl rfl, ⟨[], rfl, SegsOK_nil _⟩, by simp [QueryWF], rfl⟩

end Urlstd
