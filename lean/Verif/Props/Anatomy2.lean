/-
Property C82: the parts of file URLs and of URLs without an authority. With C81, this covers every input that begins with a
scheme.
-/
import Verif.Lemmas.Anatomy2
import Verif.Props.Anatomy
import Verif.Props.Machine

namespace Urlstd.Props

open Spec (IsStr SchemeText TabOrNewline C0OrSpace Parts Clean TailOK tailText pathOf follow segmentsOf fileURL)

theorem parse_baseArg_res (env : Env) (s : Str) (base : Option Rec) (e : Encoding) :
    (parseUrl env s (baseArg base) e).res = (basicParse env s base e).toExcept := by
  cases base <;> rfl

theorem clean_prepEnd {s : Str} (h : Clean s) : prepEnd s = s := by
  apply prepEnd_id
  · intro c hc
    have := h.2.1 c hc
    rw [← isTabNewline_iff] at this
    simpa using this
  · intro c hc
    have := h.2.2 c hc
    rw [← isC0OrSpace_iff] at this
    simpa using this

theorem colon_cons (sc r : Str) : sc ++ u!":" ++ r = sc ++ 58 :: r := by simp

/-- the text of a query and a fragment alone does not begin with a slash -/
theorem path_head {path : Str} {q f : Option Str} {c : Nat} (h : (path ++ tailStr q f).head? = some c) :
    path.head? = some c ∨ c = 63 ∨ c = 35 := by
  cases path with
  | nil => exact .inr (tailStr_head q f c h)
  | cons x xs => exact .inl h

/-- C82. Every text consists, in exactly one way, of a path, a query and a fragment. -/
theorem C82_tail (r : Str) :
    (∃ path q f, r = tailText path q f ∧ TailOK path q) ∧
    ∀ path q f path' q' f', tailText path q f = tailText path' q' f' → TailOK path q → TailOK path' q' →
      path = path' ∧ q = q' ∧ f = f' := by
  have hq : ∀ {path q f}, TailOK path q → (tailText path q f).takeWhile notQF = path ∧ (tailText path q f).dropWhile notQF = tailStr q f := by
    intro path q f ok
    rw [tailText_eq]
    exact ⟨takeWhile_append (notQF_of ok.1) tail_notQF, dropWhile_append (notQF_of ok.1) tail_notQF⟩
  constructor
  · have hd : ∀ c, (r.dropWhile notQF).head? = some c → c = 63 ∨ c = 35 := by
      intro c hc
      have := List.head?_dropWhile_not notQF r
      rw [hc] at this
      have : ¬ c = 63 → c = 35 := by simpa [notQF] using this
      omega
    obtain ⟨h1, h2⟩ := tailParts_text hd
    refine ⟨r.takeWhile notQF, _, (tailParts (r.dropWhile notQF)).2, ?_, ?_, h2⟩
    · rw [tailText_eq, h1, List.takeWhile_append_dropWhile]
    · intro c hc
      have := tailParts_text.mem_takeWhile_true hc
      simpa [notQF] using this
  · intro path q f path' q' f' h ok ok'
    have h1 := hq (f := f) ok
    have h2 := hq (f := f') ok'
    rw [h] at h1
    have h3 : tailStr q f = tailStr q' f' := h1.2.symm.trans h2.2
    have h4 : (q, f) = (q', f') := by rw [← tailParts_tailStr ok.2, ← tailParts_tailStr (f := f') ok'.2, h3]
    exact ⟨h1.1.symm.trans h2.1, congrArg Prod.fst h4, congrArg Prod.snd h4⟩

example : u!"a?b?c#d?e#f" = tailText u!"a" (some u!"b?c") (some u!"d?e#f") ∧ TailOK u!"a" (some u!"b?c") :=
  ⟨by decide, by decide, by decide⟩

/-! ### Schemes that are not special -/

/-- C82. Behind a scheme that is not special, a text without slash at the start is an opaque path with query and fragment. This
never fails, and a base has no influence. -/
theorem C82_opaque (env : Env) (sc path : Str) (q f : Option Str) (base : Option Rec) (hsc : SchemeText sc)
    (hsp : Spec.isSpecial (Spec.toLower sc) = false) (ok : TailOK path q) (hc : Clean (tailText path q f))
    (hhead : path.head? ≠ some c!"/") :
    (parseUrl env (sc ++ u!":" ++ tailText path q f) (baseArg base)).res =
      .ok { scheme := Spec.toLower sc, path := .opaque (Spec.opaqueEncode path), query := q.map (Spec.queryEncode false),
            fragment := f.map Spec.fragmentEncode } := by
  rw [parse_baseArg_res, colon_cons, parse_scheme hsc, clean_prepEnd hc]
  have hspe : ({ scheme := Spec.toLower sc } : Rec).isSpecial = false := by rw [← hsp]; exact (isSpecial_eq _).symm
  have hnf : Spec.toLower sc ≠ u!"file" := by
    intro h; rw [h] at hsp; exact absurd hsp (by decide)
  dsimp only
  rw [if_neg hnf, hspe, if_neg (by simp), tailText_eq, if_neg]
  · show Fin.toExcept (eval env .utf8 base none .opaquePath (path ++ tailStr q f) { scheme := Spec.toLower sc, path := .opaque [] }) = _
    rw [eval_opaque_parts rfl rfl rfl ok (by rw [← tailText_eq]; exact hc.1),
      show ({ scheme := Spec.toLower sc, path := .opaque [] } : Rec).isSpecial = false from hspe]
    rfl
  · intro h
    rcases path_head h with h | h | h
    · exact hhead h
    · cases h
    · cases h

example : (parseUrl exEnv (u!"Mailto" ++ u!":" ++ tailText u!"a b@é/../c" (some u!"x y") (some u!"z z")) (baseArg (some exRecord))).res =
    .ok { scheme := u!"mailto", path := .opaque u!"a b@%C3%A9/../c", query := some u!"x%20y", fragment := some u!"z%20z" } := by
  rw [C82_opaque exEnv u!"Mailto" u!"a b@é/../c" (some u!"x y") (some u!"z z") (some exRecord)
    ⟨c!"M", u!"ailto", rfl, by decide, by decide⟩ (by decide) ⟨by decide, by decide⟩ (by decide) (by decide)]
  decide +kernel

/-- C82. Behind a scheme that is not special, one slash begins a path; the URL has no host. -/
theorem C82_rooted (env : Env) (sc path : Str) (q f : Option Str) (base : Option Rec) (hsc : SchemeText sc)
    (hsp : Spec.isSpecial (Spec.toLower sc) = false) (ok : TailOK path q) (hc : Clean (tailText path q f))
    (hhead : path.head? = some c!"/") (hone : path.tail.head? ≠ some c!"/") :
    (parseUrl env (sc ++ u!":" ++ tailText path q f) (baseArg base)).res =
      .ok { scheme := Spec.toLower sc, path := .list (pathOf (Spec.toLower sc) path), query := q.map (Spec.queryEncode false),
            fragment := f.map Spec.fragmentEncode } := by
  rw [parse_baseArg_res, colon_cons, parse_scheme hsc, clean_prepEnd hc]
  have hspe : ({ scheme := Spec.toLower sc } : Rec).isSpecial = false := by rw [← hsp]; exact (isSpecial_eq _).symm
  have hnf : Spec.toLower sc ≠ u!"file" := by
    intro h; rw [h] at hsp; exact absurd hsp (by decide)
  dsimp only
  have hstr := hc.1
  rw [tailText_eq] at hstr
  rw [if_neg hnf, hspe, if_neg (by simp), tailText_eq]
  cases path with
  | nil => cases hhead
  | cons x t =>
    cases hhead
    rw [if_pos (show (47 :: t ++ tailStr q f).head? = some 47 from rfl)]
    show Fin.toExcept (eval env .utf8 base none .pathOrAuthority (t ++ tailStr q f) { scheme := Spec.toLower sc }) = _
    rw [eval_step _ _ _ _ (by decide)]
    show Fin.toExcept ((sPathOrAuthority (t ++ tailStr q f) { scheme := Spec.toLower sc }).andThen env .utf8 base none) = _
    unfold sPathOrAuthority
    rw [if_neg]
    · show Fin.toExcept (eval env .utf8 base none .path (t ++ tailStr q f) { scheme := Spec.toLower sc }) = _
      rw [eval_path_follow (out := []) rfl rfl rfl ⟨fun c hc => ok.1 c (.tail _ hc), ok.2⟩ (fun c hc => hstr c (.tail _ hc)), hspe]
      show _ = (Except.ok { scheme := Spec.toLower sc, path := .list (follow (Spec.isFile (Spec.toLower sc)) [] (segmentsOf (Spec.isSpecial (Spec.toLower sc)) t)), query := q.map (Spec.queryEncode false), fragment := f.map Spec.fragmentEncode } : Except Err Rec)
      rw [hsp]
      rfl
    · intro h
      rcases path_head h with h | h | h
      · exact hone h
      · cases h
      · cases h

example : (parseUrl exEnv (u!"x" ++ u!":" ++ tailText u!"/a/../b//" none (some u!"f")) (baseArg none)).res =
    .ok { scheme := u!"x", path := .list [u!"b", [], []], fragment := some u!"f" } := by
  rw [C82_rooted exEnv u!"x" u!"/a/../b//" none (some u!"f") none ⟨c!"x", [], rfl, by decide, by decide⟩ (by decide)
    ⟨by decide, by simp⟩ (by decide) (by decide) (by decide)]
  decide +kernel

/-! ### Special schemes other than "file" -/

/-- C82. Behind a special scheme other than "file" and other than that of the base, any number of slashes is as good as two. -/
theorem C82_special (env : Env) (sc sl : Str) (p : Parts) (base : Option Rec) (hsc : SchemeText sc)
    (hsp : Spec.isSpecial (Spec.toLower sc) = true) (hnf : Spec.toLower sc ≠ u!"file")
    (hbase : ∀ b, base = some b → b.scheme ≠ Spec.toLower sc)
    (ok : p.OK true) (hsl : ∀ c ∈ sl, c = c!"/" ∨ c = c!"\\") (hc : Clean p.text) :
    (parseUrl env (sc ++ u!":" ++ (sl ++ p.text)) (baseArg base)).res = p.url env (Spec.toLower sc) := by
  have hslash : ∀ c ∈ sl, isSlash c = true := by
    intro c hc
    rcases hsl c hc with rfl | rfl <;> rfl
  have hprep : prepEnd (sl ++ p.text) = sl ++ p.text := by
    rw [prepEnd_append, clean_prepEnd hc]
    intro c hc
    rcases hsl c hc with rfl | rfl <;> rfl
  have hspe : ({ scheme := Spec.toLower sc } : Rec).isSpecial = true := by rw [← hsp]; exact (isSpecial_eq _).symm
  rw [parse_baseArg_res, colon_cons, parse_scheme hsc, hprep]
  dsimp only
  rw [if_neg hnf, hspe, if_pos rfl, if_neg]
  · show Fin.toExcept (eval env .utf8 base none .specialAuthoritySlashes (sl ++ p.text) { scheme := Spec.toLower sc }) = _
    rw [authoritySlashes_ignore, eval_step _ _ _ _ (by decide)]
    show Fin.toExcept (eval env .utf8 base none .authority ((sl ++ p.text).dropWhile isSlash) { scheme := Spec.toLower sc }) = _
    rw [dropWhile_append hslash fun c hc => parts_head ok hc]
    exact eval_authority_parts (by rw [hsp]; exact ok) hc.1
  · cases base with
    | none => simp
    | some b => simpa using hbase b rfl

example (p : Parts) (ok : p.OK true) (ht : p.text = u!"h:80/x") :
    (parseUrl exEnv (u!"https" ++ u!":" ++ (u!"\\" ++ p.text)) (baseArg (some exRecord))).res = p.url exEnv u!"https" :=
  C82_special exEnv u!"https" u!"\\" p (some exRecord) ⟨c!"h", u!"ttps", rfl, by decide, by decide⟩ (by decide) (by decide)
    (by intro b h; cases h; decide) ok (by decide) (by rw [ht]; decide)

/-- C82. Behind the scheme of the base, if it is special and not "file", a text that does not begin with two slashes is a
reference that is resolved as if the scheme were not there. -/
theorem C82_same_scheme (env : Env) (sc r : Str) (b : Rec) (e : Encoding) (hsc : SchemeText sc)
    (hsp : Spec.isSpecial (Spec.toLower sc) = true) (hnf : Spec.toLower sc ≠ u!"file") (hb : b.scheme = Spec.toLower sc)
    (hp : ∀ t, b.path ≠ .opaque t) (hc : Clean r) (hhead : ∀ c, r.head? = some c → ¬ C0OrSpace c)
    (hns : ¬ Spec.HasScheme r) (htwo : ∀ t, r ≠ u!"//" ++ t) :
    (parseUrl env (sc ++ u!":" ++ r) (.record b) e).res = (parseUrl env r (.record b) e).res := by
  have hspe : ({ scheme := Spec.toLower sc } : Rec).isSpecial = true := by rw [← hsp]; exact (isSpecial_eq _).symm
  obtain ⟨p, hp⟩ : ∃ p, b.path = .list p := by
    cases h : b.path with
    | list p => exact ⟨p, rfl⟩
    | «opaque» t => exact absurd h (hp t)
  have hprep : prepared r none = r := by
    cases r with
    | nil => rfl
    | cons x xs =>
      have hx : isC0OrSpace x = false := by
        have := hhead x rfl
        rw [← isC0OrSpace_iff] at this
        simpa using this
      have := prepared_append (a := [x]) (b := xs) (by intro c hc; simp at hc; subst hc; exact hx) (by simp)
      rw [show [x] ++ xs = x :: xs from rfl] at this
      rw [this, ← prepEnd_append (by intro c hc; simp at hc; subst hc; exact hx)]
      exact clean_prepEnd hc
  show (basicParse env (sc ++ u!":" ++ r) (some b) e).toExcept = (basicParse env r (some b) e).toExcept
  rw [colon_cons, parse_scheme hsc, clean_prepEnd hc]
  dsimp only
  rw [if_neg hnf, hspe, if_pos rfl, if_pos (by simp [hb])]
  show Fin.toExcept (eval env e (some b) none .specialRelativeOrAuthority r { scheme := Spec.toLower sc }) = _
  rw [eval_step _ _ _ _ (by decide)]
  show Fin.toExcept ((sSpecialRelativeOrAuthority r { scheme := Spec.toLower sc }).andThen env e (some b) none) = _
  unfold sSpecialRelativeOrAuthority
  rw [if_neg]
  · rw [parse_noScheme (by rw [hprep]; exact takeScheme_none hns), hprep, eval_noScheme_relative hp (by rw [hb]; exact hnf)]
    show Fin.toExcept (eval env e (some b) none .relative r { scheme := Spec.toLower sc }) = _
    rw [eval_step _ _ _ _ (by decide)]
    show Fin.toExcept ((sRelative (some b) r { scheme := Spec.toLower sc }).andThen env e (some b) none) = _
    congr 2
    unfold sRelative copyBase
    dsimp only
    rw [if_neg (by rw [hb]; exact hnf), if_neg (by rw [hb]; exact hnf)]
  · intro h
    refine htwo (r.drop 2) ?_
    rw [← h, List.take_append_drop]

example : (parseUrl exEnv (u!"HTTP" ++ u!":" ++ u!"../y?z") (.record exRecord)).res = (parseUrl exEnv u!"../y?z" (.record exRecord)).res :=
  C82_same_scheme exEnv u!"HTTP" u!"../y?z" exRecord .utf8 ⟨c!"H", u!"TTP", rfl, by decide, by decide⟩ (by decide) (by decide) (by decide)
    (by intro t h; cases h) (by decide) (by decide)
    (by
      rintro ⟨sc, rest, ⟨c, cs, rfl, hc, -⟩, h⟩
      injection h with h _
      subst h
      exact absurd hc (by decide)) (by intro t h; cases h)

/-! ### File URLs -/

/-- C82. Two slashes behind "file:" begin a host; it ends at the next slash, "?" or "#". An empty host and "localhost" are the
same. -/
theorem C82_file_host (env : Env) (sc host path : Str) (s1 s2 : Nat) (q f : Option Str) (base : Option Rec) (hsc : SchemeText sc)
    (hfile : Spec.toLower sc = u!"file") (h1 : s1 = c!"/" ∨ s1 = c!"\\") (h2 : s2 = c!"/" ∨ s2 = c!"\\")
    (hh : ∀ c ∈ host, c ≠ c!"/" ∧ c ≠ c!"\\" ∧ c ≠ c!"?" ∧ c ≠ c!"#") (hd : Spec.isDrive host = false)
    (hp : ∀ c, path.head? = some c → c = c!"/" ∨ c = c!"\\") (ok : TailOK path q) (hc : Clean (host ++ tailText path q f)) :
    (parseUrl env (sc ++ u!":" ++ (s1 :: s2 :: (host ++ tailText path q f))) (baseArg base)).res =
      if host = [] then .ok (fileURL (some (.str [])) (pathOf u!"file" path) q f)
      else
        match (hostParse env host false).res with
        | .error e => .error e
        | .ok v => .ok (fileURL (some (if v = .str u!"localhost" then .str [] else v)) (pathOf u!"file" path) q f) := by
  have hs : ∀ s, s = 47 ∨ s = 92 → isC0OrSpace s = false := by rintro s (rfl | rfl) <;> rfl
  rw [parse_baseArg_res, colon_cons, parse_scheme hsc]
  have hprep : prepEnd (s1 :: s2 :: (host ++ tailText path q f)) = s1 :: s2 :: (host ++ tailText path q f) := by
    rw [show s1 :: s2 :: (host ++ tailText path q f) = [s1, s2] ++ (host ++ tailText path q f) from rfl,
      prepEnd_append (by intro c hc; simp at hc; rcases hc with rfl | rfl; exacts [hs _ h1, hs _ h2]), clean_prepEnd hc]
  rw [hprep]
  dsimp only
  rw [if_pos hfile, hfile]
  show Fin.toExcept (eval env .utf8 base none .file (s1 :: s2 :: (host ++ tailText path q f)) { scheme := u!"file" }) = _
  rw [eval_step _ _ _ _ (by decide)]
  have e1 : (c!"/" = s1 ∨ True) := .inr trivial
  show Fin.toExcept ((sFile base (s1 :: s2 :: (host ++ tailText path q f)) { scheme := u!"file" }).andThen env .utf8 base none) = _
  unfold sFile
  dsimp only
  rw [if_pos (by simpa using h1)]
  show Fin.toExcept (eval env .utf8 base none .fileSlash (s2 :: (host ++ tailText path q f)) { scheme := u!"file", host := some (.str []) }) = _
  rw [eval_step _ _ _ _ (by decide)]
  show Fin.toExcept ((sFileSlash base (s2 :: (host ++ tailText path q f)) { scheme := u!"file", host := some (.str []) }).andThen env .utf8 base none) = _
  unfold sFileSlash
  dsimp only
  rw [if_pos (by simpa using h2)]
  show Fin.toExcept (eval env .utf8 base none .fileHost (host ++ tailText path q f) { scheme := u!"file", host := some (.str []) }) = _
  rw [tailText_eq] at hc ⊢
  rw [eval_fileHost_parts rfl rfl rfl rfl hh hd hp ok (fun c hx => hc.1 c (List.mem_append_right _ hx))]
  by_cases he : host = []
  · rw [if_pos he, if_pos he]
    rfl
  · rw [if_neg he, if_neg he]
    cases (hostParse env host false).res <;> rfl

example : (parseUrl exEnv (u!"file" ++ u!":" ++ (c!"/" :: c!"\\" :: (u!"localhost" ++ tailText u!"/a/..\\C|/b" none none)))).res =
    .ok (fileURL (some (.str [])) [u!"C:", u!"b"] none none) := by
  have := C82_file_host exEnv u!"file" u!"localhost" u!"/a/..\\C|/b" c!"/" c!"\\" none none none
    ⟨c!"f", u!"ile", rfl, by decide, by decide⟩ (by decide) (by decide) (by decide) (by decide) (by decide) (by decide)
    ⟨by decide, by simp⟩ (by decide)
  rw [show baseArg none = .none from rfl] at this
  rw [this]
  decide +kernel

/-- C82. A drive letter in place of the host belongs to the path. -/
theorem C82_file_drive (env : Env) (sc host path : Str) (s1 s2 : Nat) (q f : Option Str) (base : Option Rec) (hsc : SchemeText sc)
    (hfile : Spec.toLower sc = u!"file") (h1 : s1 = c!"/" ∨ s1 = c!"\\") (h2 : s2 = c!"/" ∨ s2 = c!"\\")
    (hd : Spec.isDrive host = true)
    (hp : ∀ c, path.head? = some c → c = c!"/" ∨ c = c!"\\") (ok : TailOK path q) (hc : Clean (host ++ tailText path q f)) :
    (parseUrl env (sc ++ u!":" ++ (s1 :: s2 :: (host ++ tailText path q f))) (baseArg base)).res =
      .ok (fileURL (some (.str [])) (follow true [] (segmentsOf true (host ++ path))) q f) := by
  have hs : ∀ s, s = 47 ∨ s = 92 → isC0OrSpace s = false := by rintro s (rfl | rfl) <;> rfl
  rw [parse_baseArg_res, colon_cons, parse_scheme hsc]
  have hprep : prepEnd (s1 :: s2 :: (host ++ tailText path q f)) = s1 :: s2 :: (host ++ tailText path q f) := by
    rw [show s1 :: s2 :: (host ++ tailText path q f) = [s1, s2] ++ (host ++ tailText path q f) from rfl,
      prepEnd_append (by intro c hc; simp at hc; rcases hc with rfl | rfl; exacts [hs _ h1, hs _ h2]), clean_prepEnd hc]
  rw [hprep]
  dsimp only
  rw [if_pos hfile, hfile]
  show Fin.toExcept (eval env .utf8 base none .file (s1 :: s2 :: (host ++ tailText path q f)) { scheme := u!"file" }) = _
  rw [eval_step _ _ _ _ (by decide)]
  show Fin.toExcept ((sFile base (s1 :: s2 :: (host ++ tailText path q f)) { scheme := u!"file" }).andThen env .utf8 base none) = _
  unfold sFile
  dsimp only
  rw [if_pos (by simpa using h1)]
  show Fin.toExcept (eval env .utf8 base none .fileSlash (s2 :: (host ++ tailText path q f)) { scheme := u!"file", host := some (.str []) }) = _
  rw [eval_step _ _ _ _ (by decide)]
  show Fin.toExcept ((sFileSlash base (s2 :: (host ++ tailText path q f)) { scheme := u!"file", host := some (.str []) }).andThen env .utf8 base none) = _
  unfold sFileSlash
  dsimp only
  rw [if_pos (by simpa using h2)]
  show Fin.toExcept (eval env .utf8 base none .fileHost (host ++ tailText path q f) { scheme := u!"file", host := some (.str []) }) = _
  rw [tailText_eq] at hc ⊢
  rw [eval_fileHost_drive rfl rfl rfl rfl hd hp ok (fun c hx => hc.1 c (List.mem_append_right _ hx))]
  rfl

example : (parseUrl exEnv (u!"FILE" ++ u!":" ++ (c!"/" :: c!"/" :: (u!"c|" ++ tailText u!"/../x" (some u!"q") none)))).res =
    .ok (fileURL (some (.str [])) [u!"c:", u!"x"] (some u!"q") none) := by
  have := C82_file_drive exEnv u!"FILE" u!"c|" u!"/../x" c!"/" c!"/" (some u!"q") none none
    ⟨c!"F", u!"ILE", rfl, by decide, by decide⟩ (by decide) (by decide) (by decide) (by decide) (by decide)
    ⟨by decide, by decide⟩ (by decide)
  rw [show baseArg none = .none from rfl] at this
  rw [this]
  decide +kernel

theorem prepEnd_file {sl t : Str} (hsl : ∀ c ∈ sl, c = c!"/" ∨ c = c!"\\") (hc : Clean t) : prepEnd (sl ++ t) = sl ++ t := by
  rw [prepEnd_append, clean_prepEnd hc]
  intro c hc
  rcases hsl c hc with rfl | rfl <;> rfl

theorem not_slash_head {t : Str} {q f : Option Str} (ht : ∀ c, t.head? = some c → c ≠ c!"/" ∧ c ≠ c!"\\") (c : Nat)
    (h : (t ++ tailStr q f).head? = some c) : ¬ ((decide (c = 47) || decide (c = 92)) = true) := by
  rcases path_head h with h | rfl | rfl
  · have := ht c h
    simpa using this
  · decide
  · decide

/-- C82. One slash behind "file:" begins a path; the host and, if the path does not begin with one, the drive letter are those of
a base that is a file URL. -/
theorem C82_file_rooted (env : Env) (sc t : Str) (s1 : Nat) (q f : Option Str) (base : Option Rec) (hsc : SchemeText sc)
    (hfile : Spec.toLower sc = u!"file") (h1 : s1 = c!"/" ∨ s1 = c!"\\")
    (ht : ∀ c, t.head? = some c → c ≠ c!"/" ∧ c ≠ c!"\\") (ok : TailOK t q) (hc : Clean (tailText t q f)) :
    (parseUrl env (sc ++ u!":" ++ (s1 :: tailText t q f)) (baseArg base)).res =
      .ok (fileURL (Spec.inheritedHost base) (follow true (Spec.inheritedDrive base t) (segmentsOf true t)) q f) := by
  rw [parse_baseArg_res, colon_cons, parse_scheme hsc, show s1 :: tailText t q f = [s1] ++ tailText t q f from rfl,
    prepEnd_file (by simpa using h1) hc]
  dsimp only
  rw [if_pos hfile, hfile, tailText_eq]
  rw [tailText_eq] at hc
  show Fin.toExcept (eval env .utf8 base none .file (s1 :: (t ++ tailStr q f)) { scheme := u!"file" }) = _
  rw [eval_step _ _ _ _ (by decide)]
  show Fin.toExcept ((sFile base (s1 :: (t ++ tailStr q f)) { scheme := u!"file" }).andThen env .utf8 base none) = _
  unfold sFile
  dsimp only
  rw [if_pos (by simpa using h1)]
  show Fin.toExcept (eval env .utf8 base none .fileSlash (t ++ tailStr q f) { scheme := u!"file", host := some (.str []) }) = _
  rw [eval_step _ _ _ _ (by decide)]
  show Fin.toExcept ((sFileSlash base (t ++ tailStr q f) { scheme := u!"file", host := some (.str []) }).andThen env .utf8 base none) = _
  have hsl : sFileSlash base (t ++ tailStr q f) { scheme := u!"file", host := some (.str []) } =
      sFileSlashPath base (t ++ tailStr q f) { scheme := u!"file", host := some (.str []) } := by
    cases h : t ++ tailStr q f with
    | nil => rfl
    | cons c cs =>
      unfold sFileSlash
      dsimp only
      rw [if_neg (not_slash_head ht c (by rw [h]; rfl))]
  have hpath : sFileSlashPath base (t ++ tailStr q f) { scheme := u!"file", host := some (.str []) } =
      .to .path (t ++ tailStr q f) { scheme := u!"file", host := Spec.inheritedHost base, path := .list (Spec.inheritedDrive base t) } := by
    unfold sFileSlashPath Spec.inheritedHost Spec.inheritedDrive
    cases base with
    | none => rfl
    | some b =>
      dsimp only
      by_cases hb : b.scheme = u!"file"
      · rw [if_pos hb, if_pos hb]
        cases hp : b.path with
        | «opaque» x => rfl
        | list l =>
          cases l with
          | nil => rfl
          | cons p ps =>
            dsimp only
            have hd := startsWithDrive_first (q := q) (f := f) ok.1
            by_cases hD : Spec.DriveFirst t
            · rw [if_neg (by simp [hd.2 hD]), if_neg (by simp [hD])]
            · have hf : startsWithWindowsDriveLetter (t ++ tailStr q f) = false := by
                rw [Bool.eq_false_iff]; exact fun h => hD (hd.1 h)
              rw [hf, isNormDrive_eq]
              cases hn : isNormalizedWindowsDriveLetter p with
              | true => rw [if_pos (by simp), if_pos (by simp [hb, hD])]; rfl
              | false => rw [if_neg (by simp), if_neg (by simp)]
      · rw [if_neg hb, if_neg hb]
        cases hp : b.path with
        | «opaque» x => rfl
        | list l =>
          cases l with
          | nil => rfl
          | cons p ps => dsimp only; rw [if_neg (by simp [hb])]
  rw [hsl, hpath]
  show Fin.toExcept (eval env .utf8 base none .path (t ++ tailStr q f) _) = _
  rw [eval_path_follow rfl rfl rfl ok hc.1]
  rfl

example : (parseUrl exEnv (u!"file" ++ u!":" ++ (c!"/" :: tailText u!"../x" none none))
      (baseArg (some { scheme := u!"file", host := some (.str u!"h"), path := .list [u!"c:", u!"d"] }))).res =
    .ok (fileURL (some (.str u!"h")) [u!"c:", u!"x"] none none) := by
  rw [C82_file_rooted exEnv u!"file" u!"../x" c!"/" none none _ ⟨c!"f", u!"ile", rfl, by decide, by decide⟩ (by decide) (by decide)
    (by decide) ⟨by decide, by simp⟩ (by decide)]
  decide +kernel

theorem eval_file_plain {env : Env} {t : Str} {q f : Option Str} {base : Option Rec}
    (ht : ∀ c, t.head? = some c → c ≠ c!"/" ∧ c ≠ c!"\\") :
    eval env .utf8 base none .file (t ++ tailStr q f) { scheme := u!"file" } =
      (sFilePath base (t ++ tailStr q f) { scheme := u!"file", host := some (.str []) }).andThen env .utf8 base none := by
  rw [eval_step _ _ _ _ (by decide)]
  show (sFile base (t ++ tailStr q f) { scheme := u!"file" }).andThen env .utf8 base none = _
  cases h : t ++ tailStr q f with
  | nil => rfl
  | cons c cs =>
    unfold sFile
    dsimp only
    rw [if_neg (not_slash_head ht c (by rw [h]; rfl))]

/-- C82. Without a slash behind "file:" and without a base that is a file URL, the text is a path from the root. -/
theorem C82_file_plain (env : Env) (sc t : Str) (q f : Option Str) (base : Option Rec) (hsc : SchemeText sc)
    (hfile : Spec.toLower sc = u!"file") (hbase : ∀ b, base = some b → b.scheme ≠ u!"file")
    (ht : ∀ c, t.head? = some c → c ≠ c!"/" ∧ c ≠ c!"\\") (ok : TailOK t q) (hc : Clean (tailText t q f)) :
    (parseUrl env (sc ++ u!":" ++ tailText t q f) (baseArg base)).res =
      .ok (fileURL (some (.str [])) (follow true [] (segmentsOf true t)) q f) := by
  rw [parse_baseArg_res, colon_cons, parse_scheme hsc, clean_prepEnd hc]
  dsimp only
  rw [if_pos hfile, hfile, tailText_eq]
  rw [tailText_eq] at hc
  show Fin.toExcept (eval env .utf8 base none .file (t ++ tailStr q f) { scheme := u!"file" }) = _
  rw [eval_file_plain ht]
  have : sFilePath base (t ++ tailStr q f) { scheme := u!"file", host := some (.str []) } =
      .to .path (t ++ tailStr q f) { scheme := u!"file", host := some (.str []) } := by
    cases base with
    | none => rfl
    | some b =>
      unfold sFilePath
      dsimp only
      rw [if_neg (hbase b rfl)]
  rw [this]
  show Fin.toExcept (eval env .utf8 base none .path (t ++ tailStr q f) _) = _
  rw [eval_path_follow (out := []) rfl rfl rfl ok hc.1]
  rfl

example : (parseUrl exEnv (u!"file" ++ u!":" ++ tailText u!"a/b" (some []) none) (baseArg (some exRecord))).res =
    .ok (fileURL (some (.str [])) [u!"a", u!"b"] (some []) none) := by
  rw [C82_file_plain exEnv u!"file" u!"a/b" (some []) none (some exRecord) ⟨c!"f", u!"ile", rfl, by decide, by decide⟩ (by decide)
    (by intro b h; cases h; decide) (by decide) ⟨by decide, by decide⟩ (by decide)]
  decide +kernel

/-- C82. Without a slash behind "file:" and against a file URL, the text is a path relative to that of the base unless it begins
with a drive letter. -/
theorem C82_file_relative (env : Env) (sc t : Str) (q f : Option Str) (b : Rec) (p : List Str) (hsc : SchemeText sc)
    (hfile : Spec.toLower sc = u!"file") (hb : b.scheme = u!"file") (hp : b.path = .list p) (hne : t ≠ [])
    (ht : ∀ c, t.head? = some c → c ≠ c!"/" ∧ c ≠ c!"\\") (ok : TailOK t q) (hc : Clean (tailText t q f)) :
    (parseUrl env (sc ++ u!":" ++ tailText t q f) (.record b)).res =
      .ok (fileURL b.host (follow true (if Spec.DriveFirst t then [] else Spec.parent true p) (segmentsOf true t)) q f) := by
  show (basicParse env (sc ++ u!":" ++ tailText t q f) (some b) .utf8).toExcept = _
  rw [colon_cons, parse_scheme hsc, clean_prepEnd hc]
  dsimp only
  rw [if_pos hfile, hfile, tailText_eq]
  rw [tailText_eq] at hc
  show Fin.toExcept (eval env .utf8 (some b) none .file (t ++ tailStr q f) { scheme := u!"file" }) = _
  rw [eval_file_plain ht]
  have : sFilePath (some b) (t ++ tailStr q f) { scheme := u!"file", host := some (.str []) } =
      .to .path (t ++ tailStr q f) { scheme := u!"file", host := b.host, path := .list (if Spec.DriveFirst t then [] else Spec.parent true p) } := by
    have hd := startsWithDrive_first (q := q) (f := f) ok.1
    cases t with
    | nil => exact absurd rfl hne
    | cons c cs =>
      unfold sFilePath
      dsimp only [List.cons_append]
      have h2 := ok.1 c (by simp)
      rw [if_pos hb, if_neg h2.1, if_neg h2.2]
      rw [List.cons_append] at hd
      by_cases hD : Spec.DriveFirst (c :: cs)
      · rw [if_neg (by simp [hd.2 hD]), if_pos hD]
      · have hf : startsWithWindowsDriveLetter (c :: (cs ++ tailStr q f)) = false := by
          rw [Bool.eq_false_iff]; exact fun h => hD (hd.1 h)
        rw [if_pos (by simp [hf]), if_neg hD]
        unfold shortenRec
        dsimp only
        rw [hp]
        dsimp only
        rw [parent_eq]
        rfl
  rw [this]
  show Fin.toExcept (eval env .utf8 (some b) none .path (t ++ tailStr q f) _) = _
  rw [eval_path_follow rfl rfl rfl ok hc.1]
  rfl

example : (parseUrl exEnv (u!"file" ++ u!":" ++ tailText u!"a/./b" none (some u!"f"))
      (.record { scheme := u!"file", host := some (.str u!"h"), path := .list [u!"c:", u!"d"], query := some u!"q" })).res =
    .ok (fileURL (some (.str u!"h")) [u!"c:", u!"a", u!"b"] none (some u!"f")) := by
  rw [C82_file_relative exEnv u!"file" u!"a/./b" none (some u!"f") _ [u!"c:", u!"d"] ⟨c!"f", u!"ile", rfl, by decide, by decide⟩
    (by decide) rfl rfl (by decide) (by decide) ⟨by decide, by simp⟩ (by decide)]
  decide +kernel

/-- C82. A query or a fragment alone behind "file:" keeps the path of a base that is a file URL, and a fragment also its query. -/
theorem C82_file_same (env : Env) (sc : Str) (q f : Option Str) (b : Rec) (hsc : SchemeText sc)
    (hfile : Spec.toLower sc = u!"file") (hb : b.scheme = u!"file") (hne : q ≠ none ∨ f ≠ none) (ok : TailOK [] q)
    (hc : Clean (tailText [] q f)) :
    (parseUrl env (sc ++ u!":" ++ tailText [] q f) (.record b)).res =
      .ok { scheme := u!"file", host := b.host, path := b.path, query := (q.map (Spec.queryEncode true)).or b.query,
            fragment := f.map Spec.fragmentEncode } := by
  show (basicParse env (sc ++ u!":" ++ tailText [] q f) (some b) .utf8).toExcept = _
  rw [colon_cons, parse_scheme hsc, clean_prepEnd hc]
  dsimp only
  rw [if_pos hfile, hfile, tailText_eq]
  rw [tailText_eq] at hc
  show Fin.toExcept (eval env .utf8 (some b) none .file ([] ++ tailStr q f) { scheme := u!"file" }) = _
  rw [eval_file_plain (by simp), List.nil_append]
  obtain ⟨-, h2, h3⟩ := tail_str hc.1
  cases q with
  | some q =>
    have hq := query_map_eq { scheme := u!"file", host := b.host, path := b.path } h2
    have h := eval_afterPath_any (env := env) (e := .utf8) (base := some b) (st := .eof) (f := f)
      (url := { scheme := u!"file", host := b.host, path := b.path }) (eval_eof ..) rfl rfl ok.2
    rw [hq, fragment_map_eq h3] at h
    have hs : sFilePath (some b) (tailStr (some q) f) { scheme := u!"file", host := some (.str []) } =
        afterPath .eof (tailStr (some q) f) { scheme := u!"file", host := b.host, path := b.path } := by
      unfold sFilePath
      dsimp only
      rw [if_pos hb]
      rfl
    rw [hs, h]
    rfl
  | none =>
    cases f with
    | none => simp at hne
    | some f =>
      have hs : sFilePath (some b) (tailStr none (some f)) { scheme := u!"file", host := some (.str []) } =
          .to .fragment f { scheme := u!"file", host := b.host, path := b.path, query := b.query, fragment := some [] } := by
        unfold sFilePath
        dsimp only
        rw [if_pos hb]
        rfl
      rw [hs]
      show Fin.toExcept (eval env .utf8 (some b) none .fragment f _) = _
      rw [eval_fragment_any rfl, List.nil_append, fragmentEncode_eq (h3 f rfl)]
      rfl

example : (parseUrl exEnv (u!"file" ++ u!":" ++ tailText [] none (some u!"f"))
      (.record { scheme := u!"file", host := some (.str u!"h"), path := .list [u!"c:", u!"d"], query := some u!"q" })).res =
    .ok (fileURL (some (.str u!"h")) [u!"c:", u!"d"] (some u!"q") (some u!"f")) := by
  rw [C82_file_same exEnv u!"file" none (some u!"f") _ ⟨c!"f", u!"ile", rfl, by decide, by decide⟩
    (by decide) rfl (by decide) ⟨by decide, by simp⟩ (by decide)]
  decide +kernel

end Urlstd.Props
