/-
C106: references compose.
-/
import Verif.Lemmas.Compose
import Verif.Props.Place

namespace Urlstd.Props

open Spec (IsStr Denotes FileText Relative tailText TailOK Slash NoSlash HasScheme segmentsOf follow parent DriveFirst dropTabs stripC0 isSpecial queryEncode fragmentEncode singleDot doubleDot isDrive)

/-- where the path of a reference begins -/
private def start (b : Rec) (p : List Str) (t : Str) : List Str :=
  if b.scheme = u!"file" then (if DriveFirst t then [] else parent true p) else parent false p

private def moved (b : Rec) (p : List Str) (t : Str) (q f : Option Str) : Rec :=
  if b.scheme = u!"file" then Spec.fileURL b.host (follow true (start b p t) (segmentsOf true t)) q f
  else { b with
    path := .list (follow false (start b p t) (segmentsOf (isSpecial b.scheme) t))
    query := q.map (queryEncode (isSpecial b.scheme))
    fragment := f.map fragmentEncode }

private theorem good_list {b : Rec} {p : List Str} (hp : b.path = .list p) : Spec.GoodBase (some b) := by
  intro b' hb _; cases hb; exact ⟨p, hp⟩

private theorem moved_spec (env : Env) {b : Rec} {p : List Str} (hp : b.path = .list p) {s t : Str} {q f : Option Str} (hs : IsStr s)
    (e : dropTabs (stripC0 s) = tailText t q f) (hne : t ≠ []) (ht : NoSlash (isSpecial b.scheme) t) (ok : TailOK t q)
    (hn' : ¬ HasScheme t) : (parseUrl env s (.record b)).res = .ok (moved b p t q f) := by
  have hn := tail_scheme (q := q) (f := f) hn'
  have := (C83_denotes env s (some b) hs (good_list hp) (.ok (moved b p t q f))).2
  refine this ?_
  rw [e]
  by_cases hf : b.scheme = u!"file"
  · unfold moved start
    rw [if_pos hf, if_pos hf]
    exact .fileBase _ b p _ hn rfl hp hf (.path b p t q f rfl hf hp hne (by rw [hf] at ht; exact ht) ok)
  · unfold moved start
    rw [if_neg hf, if_neg hf]
    exact .reference _ b p _ hn rfl hp hf (.path p t q f hp hne ht ok)

private def exFileRecord : Rec := { scheme := u!"file", host := some (.str []), path := .list [u!"a", u!"b"] }

/-- C106. References compose. `d` is a directory (nothing, or a text that ends with a slash), `x` a last segment, `t` a relative path.
Whoever goes to `d x` and from there to `t` is where `d t` leads from the beginning. This holds for dots within `d` and `t` and for
every query and fragment; the last segment must not be a dot segment, and with file URLs drive letters must not begin anew. -/
theorem C106_compose (env : Env) (b : Rec) (p : List Str) (hp : b.path = .list p) (s1 s2 s3 : Str) (h1 : IsStr s1) (h2 : IsStr s2)
    (h3 : IsStr s3) {d x t : Str} {q f q' f' : Option Str} (e1 : dropTabs (stripC0 s1) = tailText (d ++ x) q f)
    (e2 : dropTabs (stripC0 s2) = tailText t q' f') (e3 : dropTabs (stripC0 s3) = tailText (d ++ t) q' f')
    (hd : DirText (isSpecial b.scheme) d) (hx : ∀ c ∈ x, ¬ Slash (isSpecial b.scheme) c) (hx1 : singleDot x = false)
    (hx2 : doubleDot x = false) (hne : d ++ x ≠ []) (htne : t ≠ []) (k1 : NoSlash (isSpecial b.scheme) (d ++ x))
    (k2 : NoSlash (isSpecial b.scheme) t) (ok1 : TailOK (d ++ x) q) (ok2 : TailOK t q') (n1 : ¬ HasScheme (d ++ x))
    (n2 : ¬ HasScheme t) (hdrive : b.scheme = u!"file" → isDrive x = false ∧ ¬ DriveFirst t) :
    ∃ u, (parseUrl env s1 (.record b)).res = .ok u ∧ (parseUrl env s2 (.record u)).res = (parseUrl env s3 (.record b)).res := by
  have hxs : IsStr x := by
    have hs := (prepared_trimmed h1).1.1
    rw [← prepared_std, e1] at hs
    intro c hc
    exact hs c (by unfold tailText; simp [hc])
  refine ⟨moved b p (d ++ x) q f, moved_spec env hp h1 e1 hne k1 ok1 n1, ?_⟩
  obtain ⟨S, hS⟩ := hd.segments
  have hdt : d ++ t ≠ [] := fun h => htne (List.append_eq_nil_iff.1 h).2
  have k3 : NoSlash (isSpecial b.scheme) (d ++ t) := by
    by_cases h0 : d = []
    · rw [h0]; exact k2
    · exact dir_noSlash h0 k1
  have ok3 : TailOK (d ++ t) q' := by
    refine ⟨fun c hc => ?_, ok2.2⟩
    rcases List.mem_append.1 hc with hc | hc
    · exact ok1.1 c (List.mem_append_left _ hc)
    · exact ok2.1 c hc
  have n3 : ¬ HasScheme (d ++ t) := hd.noScheme n1 fun _ => n2
  rw [moved_spec env hp h3 e3 hdt k3 ok3 n3]
  have one := segmentsOf_one hx
  by_cases hf : b.scheme = u!"file"
  · obtain ⟨g1, g2⟩ := hdrive hf
    have hsp : isSpecial b.scheme = true := by rw [hf]; decide
    rw [hsp] at hS one hd k2
    have hst : start b p (d ++ x) = start b p (d ++ t) := by
      have : DriveFirst (d ++ x) ↔ DriveFirst (d ++ t) := by
        unfold DriveFirst
        rw [hS, hS]
        cases S with
        | cons a S => simp
        | nil =>
          rw [List.nil_append, List.nil_append, one]
          constructor
          · rintro ⟨a, ha, h⟩
            cases ha
            rw [g1] at h; cases h
          · intro h; exact absurd h g2
      unfold start
      simp only [this]
    have hpath : (moved b p (d ++ x) q f).path = .list (enter true (start b p (d ++ x)) S ++ [Spec.Rfc.pathEncode x]) := by
      unfold moved
      rw [if_pos hf, hS, one, follow_append _ _ _ _ (by simp)]
      unfold Spec.fileURL follow Spec.segment
      simp [hx1, hx2, g1]
    have hsc : (moved b p (d ++ x) q f).scheme = u!"file" := by unfold moved; rw [if_pos hf]; rfl
    have hh : (moved b p (d ++ x) q f).host = b.host := by unfold moved; rw [if_pos hf]; rfl
    rw [moved_spec env hpath h2 e2 htne (by rw [hsc]; exact k2) ok2 n2]
    generalize moved b p (d ++ x) q f = u at *
    unfold moved
    rw [if_pos hf, if_pos hsc, hh, hS, follow_append _ _ _ _ (segmentsOf_ne _ _)]
    have hs' : start u (enter true (start b p (d ++ x)) S ++ [Spec.Rfc.pathEncode x]) t =
        parent true (enter true (start b p (d ++ x)) S ++ [Spec.Rfc.pathEncode x]) := by
      conv => lhs; unfold start
      rw [if_pos hsc, if_neg g2]
      rfl
    rw [hs', parent_snoc, hst]
    intro _ _
    cases h : Spec.isNormDrive (Spec.Rfc.pathEncode x) with
    | false => rfl
    | true => rw [pathEncode_drive hxs h] at g1; cases g1
  · have hpath : (moved b p (d ++ x) q f).path = .list (enter false (parent false p) S ++ [Spec.Rfc.pathEncode x]) := by
      unfold moved start
      rw [if_neg hf, if_neg hf, hS, one, follow_append _ _ _ _ (by simp)]
      unfold follow Spec.segment
      simp [hx1, hx2]
    have hsc : (moved b p (d ++ x) q f).scheme = b.scheme := by unfold moved; rw [if_neg hf]
    rw [moved_spec env hpath h2 e2 htne (by rw [hsc]; exact k2) ok2 n2]
    unfold moved start
    simp only [if_neg hf]
    rw [parent_snoc (fun h => by cases h), hS, follow_append _ _ _ _ (segmentsOf_ne _ _)]

/-- "../c/x?1#2" and then "./d?3" -/
example : ∃ u, (parseUrl exEnv u!" ../c/x?1#2" (.record exRecord)).res = .ok u ∧
    (parseUrl exEnv u!"./d?3" (.record u)).res = (parseUrl exEnv u!"../c/./d?3" (.record exRecord)).res :=
  C106_compose exEnv exRecord _ rfl _ _ _ (by decide) (by decide) (by decide) (d := u!"../c/") (x := u!"x") (t := u!"./d")
    (q := some u!"1") (f := some u!"2") (q' := some u!"3") (f' := none) (by decide +kernel) (by decide +kernel) (by decide +kernel)
    (.inr ⟨u!"../c", c!"/", rfl, by decide⟩) (by decide) (by decide) (by decide) (by decide) (by decide) (by decide) (by decide)
    ⟨by decide, by decide⟩ ⟨by decide, by decide⟩ (noScheme_of (by decide)) (noScheme_of (by decide)) (fun h => absurd h (by decide))

/-- the same with a file URL: "C|/x" and then "../../d" stays on the drive -/
example : ∃ u, (parseUrl exEnv u!"C|/x" (.record exFileRecord)).res = .ok u ∧
    (parseUrl exEnv u!"../../d" (.record u)).res = (parseUrl exEnv u!"C|/../../d" (.record exFileRecord)).res :=
  C106_compose exEnv exFileRecord _ rfl _ _ _ (by decide) (by decide) (by decide) (d := u!"C|/") (x := u!"x") (t := u!"../../d")
    (q := none) (f := none) (q' := none) (f' := none) (by decide +kernel) (by decide +kernel) (by decide +kernel)
    (.inr ⟨u!"C|", c!"/", rfl, by decide⟩) (by decide) (by decide) (by decide) (by decide) (by decide) (by decide) (by decide)
    ⟨by decide, by simp⟩ ⟨by decide, by simp⟩ (noScheme_of (by decide)) (noScheme_of (by decide))
    (fun _ => ⟨by decide, by decide⟩)

/-- C106 for references without a path: a query replaces the query, a fragment the fragment, and the path is that of the first
reference, dot segments or not. -/
theorem C106_tail (env : Env) (b : Rec) (p : List Str) (hp : b.path = .list p) (s1 s2 s3 : Str) (h1 : IsStr s1) (h2 : IsStr s2)
    (h3 : IsStr s3) {r : Str} {q f q' f' : Option Str} (e1 : dropTabs (stripC0 s1) = tailText r q f)
    (e2 : dropTabs (stripC0 s2) = tailText [] q' f') (e3 : dropTabs (stripC0 s3) = tailText r (q'.or q) f')
    (hne : r ≠ []) (hne' : q' ≠ none ∨ f' ≠ none) (k1 : NoSlash (isSpecial b.scheme) r)
    (ok1 : TailOK r q) (ok2 : TailOK [] q') (n1 : ¬ HasScheme r) :
    ∃ u, (parseUrl env s1 (.record b)).res = .ok u ∧ (parseUrl env s2 (.record u)).res = (parseUrl env s3 (.record b)).res := by
  refine ⟨moved b p r q f, moved_spec env hp h1 e1 hne k1 ok1 n1, ?_⟩
  have ok3 : TailOK r (q'.or q) := by
    refine ⟨ok1.1, fun y hy => ?_⟩
    cases q' with
    | none => exact ok1.2 y hy
    | some z => exact ok2.2 y hy
  rw [moved_spec env hp h3 e3 hne k1 ok3 n1]
  have n2 := tail_scheme (q := q') (f := f') noScheme_nil
  have hq : ∀ g : Str → Str, (q'.map g).or (q.map g) = (q'.or q).map g := by
    intro g; cases q' <;> rfl
  by_cases hf : b.scheme = u!"file"
  · have hm : ∀ q f, moved b p r q f = Spec.fileURL b.host (follow true (start b p r) (segmentsOf true r)) q f := by
      intro q f; unfold moved; rw [if_pos hf]
    rw [hm, hm]
    refine (C83_denotes env s2 (some _) h2 (good_list rfl) _).2 ?_
    rw [e2]
    have := FileText.same (env := env) (base := some (Spec.fileURL b.host (follow true (start b p r) (segmentsOf true r)) q f)) _ q' f'
      rfl rfl hne' ok2
    refine .fileBase _ _ _ _ n2 rfl rfl rfl ?_
    unfold Spec.fileURL at this ⊢
    rw [← hq]
    exact this
  · have hm : ∀ q f, moved b p r q f = { b with
        path := .list (follow false (start b p r) (segmentsOf (isSpecial b.scheme) r))
        query := q.map (queryEncode (isSpecial b.scheme))
        fragment := f.map fragmentEncode } := by
      intro q f; unfold moved; rw [if_neg hf]
    rw [hm, hm]
    refine (C83_denotes env s2 (some _) h2 (good_list rfl) _).2 ?_
    rw [e2]
    refine .reference _ _ _ _ n2 rfl rfl hf ?_
    have := Relative.same (env := env) (b := { b with
        path := .list (follow false (start b p r) (segmentsOf (isSpecial b.scheme) r))
        query := q.map (queryEncode (isSpecial b.scheme))
        fragment := f.map fragmentEncode }) q' f' ok2
    rw [← hq]
    exact this

/-- "./..?1#2" and then "#3" -/
example : ∃ u, (parseUrl exEnv u!"./..?1#2" (.record exRecord)).res = .ok u ∧
    (parseUrl exEnv u!"#3" (.record u)).res = (parseUrl exEnv u!"./..?1#3" (.record exRecord)).res :=
  C106_tail exEnv exRecord _ rfl _ _ _ (by decide) (by decide) (by decide) (r := u!"./..")
    (q := some u!"1") (f := some u!"2") (q' := none) (f' := some u!"3") (by decide +kernel) (by decide +kernel) (by decide +kernel)
    (by decide) (.inr (by simp)) (by decide) ⟨by decide, by decide⟩ ⟨by decide, by simp⟩ (noScheme_of (by decide))

/-- C106 for URL objects: a URL that is the base of a second one which is the base of a third one, whatever was done to the first
one before. The path of the first must not be opaque. -/
theorem C106_objects (env : Env) (o : URLObj) (p : List Str) (hp : o.url.path = .list p) (s1 s2 s3 : Str)
    (h1 : IsStr s1) (h2 : IsStr s2) (h3 : IsStr s3) {d x t : Str} {q f q' f' : Option Str}
    (e1 : dropTabs (stripC0 s1) = tailText (d ++ x) q f)
    (e2 : dropTabs (stripC0 s2) = tailText t q' f') (e3 : dropTabs (stripC0 s3) = tailText (d ++ t) q' f')
    (hd : DirText (isSpecial o.url.scheme) d) (hx : ∀ c ∈ x, ¬ Slash (isSpecial o.url.scheme) c) (hx1 : singleDot x = false)
    (hx2 : doubleDot x = false) (hne : d ++ x ≠ []) (htne : t ≠ []) (k1 : NoSlash (isSpecial o.url.scheme) (d ++ x))
    (k2 : NoSlash (isSpecial o.url.scheme) t) (ok1 : TailOK (d ++ x) q) (ok2 : TailOK t q') (n1 : ¬ HasScheme (d ++ x))
    (n2 : ¬ HasScheme t) (hdrive : o.url.scheme = u!"file" → isDrive x = false ∧ ¬ DriveFirst t) (o1 : URLObj)
    (ho1 : URLObj.new env s1 (.url o) = .ok o1) : URLObj.new env s2 (.url o1) = URLObj.new env s3 (.url o) := by
  obtain ⟨u, a1, a2⟩ := C106_compose env.quiet o.url p hp s1 s2 s3 h1 h2 h3 e1 e2 e3 hd hx hx1 hx2 hne htne k1 k2 ok1 ok2 n1 n2 hdrive
  unfold URLObj.new at ho1 ⊢
  unfold UrlBase.arg at ho1 ⊢
  dsimp only at ho1 ⊢
  rw [a1] at ho1
  cases ho1
  dsimp only
  rw [a2]

example (o1 : URLObj) (h : URLObj.new exEnv u!"x/y" (.url exObj) = .ok o1) :
    URLObj.new exEnv u!"../z" (.url o1) = URLObj.new exEnv u!"x/../z" (.url exObj) :=
  C106_objects exEnv exObj _ rfl _ _ _ (by decide) (by decide) (by decide) (d := u!"x/") (x := u!"y") (t := u!"../z")
    (q := none) (f := none) (q' := none) (f' := none) (by decide +kernel) (by decide +kernel) (by decide +kernel)
    (.inr ⟨u!"x", c!"/", rfl, by decide⟩) (by decide) (by decide) (by decide) (by decide) (by decide) (by decide) (by decide)
    ⟨by decide, by simp⟩ ⟨by decide, by simp⟩ (noScheme_of (by decide)) (noScheme_of (by decide)) (fun h => absurd h (by decide)) o1 h

/-- C106 is false for a last segment that is a dot segment, and for one that is a drive letter. -/
theorem C106_false :
    (∃ u, (parseUrl exEnv u!".." (.record exRecord)).res = .ok u ∧
      ¬ (parseUrl exEnv u!"y" (.record u)).res = (parseUrl exEnv u!"y" (.record exRecord)).res) ∧
    ∃ u, (parseUrl exEnv u!"C|" (.record exFileRecord)).res = .ok u ∧
      ¬ (parseUrl exEnv u!"y" (.record u)).res = (parseUrl exEnv u!"y" (.record exFileRecord)).res := by
  refine ⟨⟨{ exRecord with path := .list [[]], query := none, fragment := none }, by decide +kernel, by decide +kernel⟩,
    ⟨{ exFileRecord with path := .list [u!"C:"] }, by decide +kernel, by decide +kernel⟩⟩

end Urlstd.Props
