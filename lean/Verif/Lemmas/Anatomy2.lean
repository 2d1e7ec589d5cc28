/-
The states of URLs without authority and of file URLs, for a text that is put together from its parts.
-/
import Verif.Lemmas.Anatomy

set_option linter.unusedSimpArgs false

namespace Urlstd

open Spec (IsStr SchemeText)

section
variable {env : Env} {base : Option Rec}

theorem tailText_eq (path : Str) (q f : Option Str) : Spec.tailText path q f = path ++ tailStr q f := by
  unfold Spec.tailText tailStr
  cases q <;> cases f <;> simp

theorem query_map_eq (url : Rec) {q : Option Str} (h : ∀ x, q = some x → IsStr x) :
    q.map (encodeQuery .utf8 url) = q.map (Spec.queryEncode url.isSpecial) := by
  cases q with
  | none => rfl
  | some x =>
    simp only [Option.map_some, Option.some.injEq]
    unfold encodeQuery
    rw [ite_self]
    exact queryEncode_eq (h x rfl) _

theorem fragment_map_eq {f : Option Str} (h : ∀ x, f = some x → IsStr x) :
    f.map (utf8PercentEncode · safeFragment) = f.map Spec.fragmentEncode := by
  cases f with
  | none => rfl
  | some x =>
    simp only [Option.map_some, Option.some.injEq]
    exact fragmentEncode_eq (h x rfl)

theorem tail_str {path : Str} {q f : Option Str} (h : IsStr (path ++ tailStr q f)) :
    IsStr path ∧ (∀ x, q = some x → IsStr x) ∧ (∀ x, f = some x → IsStr x) := by
  refine ⟨fun c hc => h c (by simp [hc]), ?_, ?_⟩
  · rintro x rfl c hc
    exact h c (by simp [tailStr, hc])
  · rintro x rfl c hc
    exact h c (by simp [tailStr, hc])

theorem notQF_of {path : Str} (h : ∀ c ∈ path, c ≠ 63 ∧ c ≠ 35) : ∀ c ∈ path, notQF c = true := by
  intro c hc
  simp [notQF, h c hc]

theorem tail_notQF {q f : Option Str} : ∀ c, (tailStr q f).head? = some c → notQF c = false := by
  intro c hc
  rcases tailStr_head q f c hc with rfl | rfl <;> decide

/-- the path state, with the segments of a text followed from a given path on -/
theorem eval_path_follow {url : Rec} {out : List Str} (hp : url.path = .list out) (hq0 : url.query = none) (hf0 : url.fragment = none)
    {t : Str} {q f : Option Str} (ok : Spec.TailOK t q) (hs : IsStr (t ++ tailStr q f)) :
    eval env .utf8 base none .path (t ++ tailStr q f) url =
      (.ok (), { url with path := .list (Spec.follow (Spec.isFile url.scheme) out (Spec.segmentsOf url.isSpecial t)), query := q.map (Spec.queryEncode url.isSpecial), fragment := f.map Spec.fragmentEncode }) := by
  obtain ⟨h1, h2, h3⟩ := tail_str hs
  rw [eval_path_tail hp hq0 hf0 (notQF_of ok.1) ok.2, query_map_eq url h2, fragment_map_eq h3,
    addPieces_follow _ _ fun a ha x hx => h1 x (pathPieces_mem a ha x hx), ← segmentsOf_eq]

theorem opaqueEncode_eq {s : Str} (hs : IsStr s) : (s.flatMap fun c => utf8PercentEncode [c] safeC0) = Spec.opaqueEncode s := by
  unfold Spec.opaqueEncode
  apply flatMap_congr_mem
  intro c hc
  exact utf8PercentEncode_spec (fun x hx => by simp at hx; subst hx; exact hs x hc) (by decide +kernel)

theorem eval_opaque_parts {url : Rec} (hp : url.path = .opaque []) (hq0 : url.query = none) (hf0 : url.fragment = none)
    {t : Str} {q f : Option Str} (ok : Spec.TailOK t q) (hs : IsStr (t ++ tailStr q f)) :
    eval env .utf8 base none .opaquePath (t ++ tailStr q f) url =
      (.ok (), { url with path := .opaque (Spec.opaqueEncode t), query := q.map (Spec.queryEncode url.isSpecial), fragment := f.map Spec.fragmentEncode }) := by
  obtain ⟨h1, h2, h3⟩ := tail_str hs
  rw [eval_step _ _ _ _ (by decide)]
  show (sOpaquePath (t ++ tailStr q f) url).andThen env .utf8 base none = _
  unfold sOpaquePath
  rw [takeWhile_append (notQF_of ok.1) tail_notQF, dropWhile_append (notQF_of ok.1) tail_notQF, opaqueEncode_eq h1, hp]
  rw [show Path.addText (.opaque []) (Spec.opaqueEncode t) = .opaque (Spec.opaqueEncode t) from rfl]
  rw [eval_afterPath_any (st := .eof) (url := { url with path := .opaque (Spec.opaqueEncode t) }) (eval_eof ..) hq0 hf0 ok.2,
    fragment_map_eq h3, query_map_eq _ h2]
  rfl

/-! ### Drive letters -/

/-- the first segment of a text -/
theorem segmentsOf_head (sp : Bool) (t : Str) : (Spec.segmentsOf sp t).head? = some (t.takeWhile fun c => !isPathSep sp c) := by
  rw [segmentsOf_eq]
  induction t with
  | nil => rfl
  | cons c cs ih =>
    unfold pathPieces
    cases h : isPathSep sp c with
    | true => rw [if_pos rfl, List.takeWhile_cons_of_neg (by simp [h])]; rfl
    | false =>
      rw [if_neg (by simp), List.takeWhile_cons_of_pos (by simp [h])]
      cases hp : pathPieces sp cs with
      | nil => rw [hp] at ih; cases ih
      | cons p ps => rw [hp] at ih; cases ih; rfl

theorem driveFirst_iff (t : Str) : Spec.DriveFirst t ↔ isWindowsDriveLetter (t.takeWhile fun c => !isPathSep true c) = true := by
  unfold Spec.DriveFirst
  rw [segmentsOf_head]
  simp [isDrive_eq]

theorem startsWithDrive_first {t : Str} {q f : Option Str} (h : ∀ c ∈ t, c ≠ 63 ∧ c ≠ 35) :
    startsWithWindowsDriveLetter (t ++ tailStr q f) = true ↔ Spec.DriveFirst t := by
  rw [driveFirst_iff]
  have hsep : ∀ c, isPathSep true c = true ↔ c = 47 ∨ c = 92 := by intro c; simp [isPathSep]
  have hd : ∀ a b, isWindowsDriveLetter [a, b] = true → isPathSep true a = false ∧ isPathSep true b = false ∧ a ≠ 63 ∧ a ≠ 35 ∧ b ≠ 63 ∧ b ≠ 35 := by
    intro a b hab
    simp only [isWindowsDriveLetter, Bool.and_eq_true, Bool.or_eq_true, beq_iff_eq, isAlpha_iff] at hab
    unfold Spec.Letter at hab
    refine ⟨?_, ?_, ?_⟩
    · rw [Bool.eq_false_iff, ne_eq, hsep]; omega
    · rw [Bool.eq_false_iff, ne_eq, hsep]; omega
    · omega
  have hth := tailStr_head q f
  match t with
  | [] =>
    rw [List.nil_append]
    constructor
    · intro h1
      unfold startsWithWindowsDriveLetter at h1
      split at h1
      · next a b rest he =>
        simp only [Bool.and_eq_true] at h1
        have := hd a b h1.1
        have := hth a (by rw [he]; rfl)
        omega
      · cases h1
    · intro h1; cases h1
  | [a] =>
    constructor
    · intro h1
      unfold startsWithWindowsDriveLetter at h1
      split at h1
      · next a' b rest he =>
        simp only [Bool.and_eq_true] at h1
        have h2 := hd a' b h1.1
        simp only [List.cons_append, List.nil_append, List.cons.injEq] at he
        have := hth b (by rw [he.2]; rfl)
        omega
      · cases h1
    · intro h1
      have hl : ∀ x y, [a].takeWhile (fun c => !isPathSep true c) ≠ [x, y] := by
        intro x y he
        have := (List.takeWhile_sublist (fun c => !isPathSep true c) (l := [a])).length_le
        rw [he] at this
        simp at this
      unfold isWindowsDriveLetter at h1
      split at h1
      · next x y he => exact absurd he (hl x y)
      · cases h1
  | a :: b :: rest =>
    show (isWindowsDriveLetter [a, b] && (match rest ++ tailStr q f with | [] => true | c :: _ => (u!"/\\?#").contains c)) = true ↔ _
    by_cases hab : isWindowsDriveLetter [a, b] = true
    · obtain ⟨h1, h2, -⟩ := hd a b hab
      rw [List.takeWhile_cons_of_pos (by simp [h1]), List.takeWhile_cons_of_pos (by simp [h2]), hab, Bool.true_and]
      cases rest with
      | nil =>
        rw [List.nil_append]
        refine ⟨fun _ => hab, fun _ => ?_⟩
        cases ht : tailStr q f with
        | nil => rfl
        | cons c cs =>
          rcases hth c (by rw [ht]; rfl) with rfl | rfl <;> rfl
      | cons c cs =>
        have hc := h c (by simp)
        show (u!"/\\?#").contains c = true ↔ _
        cases hs : isPathSep true c with
        | true =>
          rw [List.takeWhile_cons_of_neg (by simp [hs])]
          refine ⟨fun _ => hab, fun _ => ?_⟩
          rcases (hsep c).1 hs with rfl | rfl <;> rfl
        | false =>
          rw [List.takeWhile_cons_of_pos (by simp [hs])]
          constructor
          · intro hm
            rw [List.contains_iff_mem] at hm
            have : ¬ (c = 47 ∨ c = 92) := by rw [← hsep, hs]; decide
            simp at hm
            omega
          · intro hm; cases hm
    · constructor
      · intro h1
        simp only [Bool.and_eq_true] at h1
        exact absurd h1.1 hab
      · intro h1
        exfalso
        apply hab
        unfold isWindowsDriveLetter at h1
        split at h1
        · next x y he =>
          have hpre := List.takeWhile_prefix (fun c => !isPathSep true c) (l := a :: b :: rest)
          rw [he] at hpre
          obtain ⟨w, hw⟩ := hpre
          simp only [List.cons_append, List.cons.injEq] at hw
          obtain ⟨rfl, rfl, -⟩ := hw
          exact h1
        · cases h1

/-! ### File URLs -/

theorem notFileHostEnd_iff {c : Nat} : notFileHostEnd c = false ↔ c = 47 ∨ c = 92 ∨ c = 63 ∨ c = 35 := by
  simp [notFileHostEnd]
  omega

theorem fileTail_end {path : Str} {q f : Option Str} (hs : ∀ c, path.head? = some c → c = 47 ∨ c = 92) :
    ∀ c, (path ++ tailStr q f).head? = some c → notFileHostEnd c = false := by
  intro c hc
  rw [notFileHostEnd_iff]
  cases path with
  | nil => rcases tailStr_head q f c hc with h | h <;> omega
  | cons x xs => rcases hs c hc with h | h <;> omega

theorem eval_fileHost_parts {url : Rec} (hsc : url.scheme = u!"file") (hp : url.path = .list []) (hq0 : url.query = none) (hf0 : url.fragment = none)
    {h path : Str} {q f : Option Str} (hh : ∀ c ∈ h, c ≠ 47 ∧ c ≠ 92 ∧ c ≠ 63 ∧ c ≠ 35) (hd : Spec.isDrive h = false)
    (hs : ∀ c, path.head? = some c → c = 47 ∨ c = 92) (ok : Spec.TailOK path q) (hstr : IsStr (path ++ tailStr q f)) :
    Fin.toExcept (eval env .utf8 base none .fileHost (h ++ (path ++ tailStr q f)) url) =
      match (if h = [] then .ok (.str []) else (hostParse env h false).res) with
      | .error e => .error e
      | .ok v => .ok { url with host := some (if v = .str u!"localhost" then .str [] else v), path := .list (Spec.pathOf u!"file" path), query := q.map (Spec.queryEncode true), fragment := f.map Spec.fragmentEncode } := by
  obtain ⟨h1, h2, h3⟩ := tail_str hstr
  have hsp : url.isSpecial = true := by unfold Rec.isSpecial; rw [hsc]; decide
  have hall : ∀ c ∈ h, notFileHostEnd c = true := by
    intro c hc
    have := hh c hc
    cases hn : notFileHostEnd c with
    | true => rfl
    | false => rw [notFileHostEnd_iff] at hn; omega
  have go : ∀ v, Fin.toExcept (eval env .utf8 base none .pathStart (path ++ tailStr q f) { url with host := v }) =
      .ok { url with host := v, path := .list (Spec.pathOf u!"file" path), query := q.map (Spec.queryEncode true), fragment := f.map Spec.fragmentEncode } := by
    intro v
    have hsp' : ({ url with host := v } : Rec).isSpecial = true := hsp
    rw [eval_pathStart_parts (url := { url with host := v }) hp hq0 hf0 ok.1 (by rw [hsp']; simpa using hs) ok.2 h1 h2 h3, hsp']
    show Except.ok { url with host := v, path := .list (Spec.pathOf url.scheme path), query := _, fragment := _ } = _
    rw [hsc]
  rw [eval_step _ _ _ _ (by decide)]
  show Fin.toExcept ((sFileHost env none (h ++ (path ++ tailStr q f)) url).andThen env .utf8 base none) = _
  unfold sFileHost
  rw [takeWhile_append hall (fileTail_end hs), dropWhile_append hall (fileTail_end hs)]
  unfold sFileHostEnd
  rw [isDrive_eq] at hd
  rw [if_neg (by simp [hd])]
  by_cases he : h = []
  · rw [if_pos (by simp [he]), if_pos he]
    exact go _
  · rw [if_neg (by simpa using he), if_neg he, hsp]
    show Fin.toExcept (SOut.andThen env .utf8 base none (match (hostParse env h false).res with | .error e => _ | .ok h => _)) = _
    cases (hostParse env h false).res with
    | error e => rfl
    | ok v => exact go _

theorem eval_fileHost_drive {url : Rec} (hsc : url.scheme = u!"file") (hp : url.path = .list []) (hq0 : url.query = none) (hf0 : url.fragment = none)
    {h path : Str} {q f : Option Str} (hd : Spec.isDrive h = true)
    (hs : ∀ c, path.head? = some c → c = 47 ∨ c = 92) (ok : Spec.TailOK path q) (hstr : IsStr (path ++ tailStr q f)) :
    eval env .utf8 base none .fileHost (h ++ (path ++ tailStr q f)) url =
      (.ok (), { url with path := .list (Spec.follow true [] (Spec.segmentsOf true (h ++ path))), query := q.map (Spec.queryEncode true), fragment := f.map Spec.fragmentEncode }) := by
  have hsp : url.isSpecial = true := by unfold Rec.isSpecial; rw [hsc]; decide
  rw [isDrive_eq] at hd
  have hh : ∀ c ∈ h, c < 128 ∧ c ≠ 47 ∧ c ≠ 92 ∧ c ≠ 63 ∧ c ≠ 35 := by
    have h0 := hd
    unfold isWindowsDriveLetter at h0
    split at h0
    · next a b =>
      simp only [Bool.and_eq_true, Bool.or_eq_true, beq_iff_eq, isAlpha_iff] at h0
      unfold Spec.Letter at h0
      intro c hc
      simp at hc
      omega
    · cases h0
  have hall : ∀ c ∈ h, notFileHostEnd c = true := by
    intro c hc
    have := hh c hc
    cases hn : notFileHostEnd c with
    | true => rfl
    | false => rw [notFileHostEnd_iff] at hn; omega
  rw [eval_step _ _ _ _ (by decide)]
  show (sFileHost env none (h ++ (path ++ tailStr q f)) url).andThen env .utf8 base none = _
  unfold sFileHost
  rw [takeWhile_append hall (fileTail_end hs), dropWhile_append hall (fileTail_end hs)]
  unfold sFileHostEnd
  rw [if_pos (by rw [hd]; rfl)]
  show eval env .utf8 base none .path (h ++ (path ++ tailStr q f)) url = _
  rw [← List.append_assoc, eval_path_follow hp hq0 hf0 ⟨?_, ok.2⟩, hsp, hsc]
  · rfl
  · intro c hc
    rw [List.append_assoc] at hc
    rcases List.mem_append.1 hc with hc | hc
    · have := hh c hc; omega
    · exact hstr c hc
  · intro c hc
    rcases List.mem_append.1 hc with hc | hc
    · exact ⟨(hh c hc).2.2.2.1, (hh c hc).2.2.2.2⟩
    · exact ok.1 c hc

end

end Urlstd
