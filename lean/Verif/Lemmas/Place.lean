/-
For C101: the text in front of the path of a base, with another path, query and fragment behind it.
-/
import Verif.Spec.Place
import Verif.Lemmas.Depend
import Verif.Lemmas.Generic
import Verif.Lemmas.Refuse
import Verif.Lemmas.CleanUrl3
import Verif.Lemmas.ErrorFree4
import Verif.Lemmas.Span

namespace Urlstd

open Spec (Denotes FileText Relative Parts TailOK tailText Slash NoSlash SchemeText AuthorityEnd TwoSlashes NoPath NoQuery)

variable {env : Env}

/-- what stands in front of the path -/
def rootText (u : Rec) : Str :=
  u.scheme ++ u!":" ++ (match u.host with | some h => u!"//" ++ authText u h | none => [])

theorem serialize_root (u : Rec) : u.serialize = rootText u ++ (writtenPath u ++ tailStr u.query u.fragment) := by
  rw [serialize_split]
  unfold Rec.beforePath rootText writtenPath authText Rec.afterPathStr tailStr
  simp only [List.append_assoc]
  cases u.host <;> cases u.query <;> cases u.fragment <;> simp

theorem authText_backslash {k : Bool} {u : Rec} (hw : WF k (HostWF env) u) {h : Host} (hh : u.host = some h) : 92 ∉ authText u h := by
  intro hc
  unfold authText at hc
  simp only [List.mem_append] at hc
  rcases hc with (hc | hc) | hc
  · unfold Rec.serializeCredentials at hc
    split at hc
    · simp only [List.mem_append] at hc
      rcases hc with (hc | hc) | hc
      · exact absurd (hw.auth.user _ hc) (by decide)
      · split at hc
        · cases hc
        · rcases List.mem_cons.1 hc with hc | hc
          · cases hc
          · exact absurd (hw.auth.pass _ hc) (by decide)
      · simp at hc
    · cases hc
  · exact ((hw.auth.host h hh).text.chars _ hc).2.2.2.2.1 rfl
  · unfold Rec.serializePort at hc
    split at hc
    · cases hc
    · rcases List.mem_cons.1 hc with hc | hc
      · cases hc
      · exact absurd (natDec_digits _ _ hc) (by decide)

theorem authText_end {k : Bool} {u : Rec} (hw : WF k (HostWF env) u) {h : Host} (hh : u.host = some h) (sp : Bool) :
    ∀ c ∈ authText u h, ¬ AuthorityEnd sp c := by
  intro c hc he
  have h1 := authText_chars hw hh c hc
  unfold authorityStop at h1
  simp only [Bool.or_eq_false_iff, beq_eq_false_iff_ne] at h1
  rcases he with rfl | rfl | rfl | ⟨-, rfl⟩
  · exact h1.1.1 rfl
  · exact h1.1.2 rfl
  · exact h1.2 rfl
  · exact authText_backslash hw hh hc

/-- where the parts of an authority are is not changed by what follows -/
theorem parts_again {sp : Bool} {p : Parts} (ok : p.OK sp) {path : Str} {q f : Option Str} (h : TailOK path q)
    (hs : ∀ c, path.head? = some c → Slash sp c) (hn : sp = true → p.host ≠ []) :
    ({ p with path := path, query := q, fragment := f } : Parts).OK sp :=
  { userinfo := ok.userinfo, host := ok.host, colon := ok.colon, port := ok.port
    slash := hs
    path := h.1, query := h.2
    start := fun h1 h2 => absurd h2 (hn h1) }

/-- and the URL has the same scheme, credentials, host and port -/
theorem url_again {sc : Str} {p : Parts} {u : Rec} (h : p.url env sc = .ok u) (path : Str) (q f : Option Str) :
    ({ p with path := path, query := q, fragment := f } : Parts).url env sc =
      .ok { u with path := .list (Spec.pathOf sc path), query := q.map (Spec.queryEncode (Spec.isSpecial sc)), fragment := f.map Spec.fragmentEncode } := by
  unfold Parts.url at h ⊢
  dsimp only
  split at h
  · cases h
  · rename_i h1
    rw [if_neg h1]
    split at h
    · cases h
    · cases h
    · rename_i h2 h3
      cases h
      rfl

theorem url_host {sc : Str} {p : Parts} {u : Rec} (h : p.url env sc = .ok u) :
    (Spec.isSpecial sc = true → p.host ≠ []) ∧ ∃ x, u.host = some x := by
  unfold Parts.url at h
  split at h
  · cases h
  · rename_i h1
    split at h
    · cases h
    · cases h
    · cases h
      exact ⟨fun hs he => h1 ⟨he, .inl hs⟩, _, rfl⟩

/-- the authority of a text with parts -/
theorem parts_authority {k : Bool} {u : Rec} (hw : WF k (HostWF env) u) {h : Host} (hh : u.host = some h) {sp : Bool} {p : Parts} (ok : p.OK sp)
    {r : Str} (hr : ∀ c, r.head? = some c → AuthorityEnd sp c) (e : p.text = authText u h ++ r) :
    authorityText p.userinfo p.host p.port = authText u h := by
  rw [text_split] at e
  exact (span_unique (stop := AuthorityEnd sp) e (authorityText_end ok) (authText_end hw hh sp) (rest_end ok) hr).1

theorem text_again {p : Parts} {a : Str} (e : authorityText p.userinfo p.host p.port = a) (path : Str) (q f : Option Str) :
    ({ p with path := path, query := q, fragment := f } : Parts).text = a ++ tailText path q f := by
  rw [text_split, e, tailText_eq]

theorem written_head {k : Bool} {u : Rec} (hw : WF k (HostWF env) u) {h : Host} (hh : u.host = some h) (sp : Bool) :
    ∀ c, (writtenPath u ++ tailStr u.query u.fragment).head? = some c → AuthorityEnd sp c := by
  obtain ⟨p, hp, -⟩ := pastScheme_host hw hh
  intro c hc
  have h1 : u.needsDot = false := by unfold Rec.needsDot; rw [hh]; rfl
  have h2 := restStr_stop (u := u) hp c (by
    unfold writtenPath at hc
    rw [h1] at hc
    exact hc)
  unfold authorityStop at h2
  simp only [Bool.or_eq_true, beq_iff_eq] at h2
  unfold AuthorityEnd
  omega

theorem serialize_host {u : Rec} {h : Host} (hh : u.host = some h) :
    u.serialize = u.scheme ++ c!":" :: c!"/" :: c!"/" :: (authText u h ++ (writtenPath u ++ tailStr u.query u.fragment)) := by
  rw [serialize_root]
  unfold rootText
  rw [hh]
  simp

/-- a text in front of which there are slashes, when neither the one nor the other begins with a slash -/
theorem slashes_unique {sl sl' x y : Str} (hsl : ∀ c ∈ sl, Slash true c) (hsl' : ∀ c ∈ sl', Slash true c)
    (hx : NoSlash true x) (hy : NoSlash true y) (e : sl ++ x = sl' ++ y) : x = y :=
  (span_unique (stop := fun c => ¬ Slash true c) e (fun c hc => not_not_intro (hsl c hc)) (fun c hc => not_not_intro (hsl' c hc)) hx hy).2

theorem slash_end {sp : Bool} {c : Nat} (h : Slash sp c) : AuthorityEnd sp c := by
  rcases h with h | h
  · exact .inl h
  · exact .inr (.inr (.inr h))

theorem authText_noSlash {k : Bool} {u : Rec} (hw : WF k (HostWF env) u) {h : Host} (hh : u.host = some h) (hne : hostSerialize h ≠ []) (r : Str) :
    NoSlash true (authText u h ++ r) := by
  have hne : authText u h ≠ [] := by
    unfold authText
    intro h
    simp only [List.append_eq_nil_iff] at h
    exact hne h.1.2
  intro c hc hs
  cases ha : authText u h with
  | nil => exact hne ha
  | cons d t =>
    rw [ha] at hc
    cases hc
    exact authText_end hw hh true c (by rw [ha]; simp) (slash_end hs)

theorem parts_noSlash {p : Parts} (ok : p.OK true) (hne : p.host ≠ []) : NoSlash true p.text := by
  intro c hc hs
  rw [text_split] at hc
  cases ha : authorityText p.userinfo p.host p.port with
  | nil =>
    unfold authorityText at ha
    simp only [List.append_eq_nil_iff] at ha
    exact hne ha.2.1
  | cons d t =>
    rw [ha] at hc
    cases hc
    exact authorityText_end ok c (by rw [ha]; simp) (slash_end hs)

theorem rootText_host {u : Rec} {h : Host} (hh : u.host = some h) (t : Str) :
    rootText u ++ t = u.scheme ++ u!":" ++ (u!"//" ++ (authText u h ++ t)) := by
  unfold rootText
  rw [hh]
  simp

theorem rootText_null {u : Rec} (hh : u.host = none) : rootText u = u.scheme ++ u!":" := by
  unfold rootText
  rw [hh]
  simp

/-- The text in front of the path of a URL that its href gives back, with another path, query and fragment. -/
theorem denotes_again {u : Rec} (hw : WF true (HostWF env) u) (hf : u.scheme ≠ u!"file") (hd : Denotes env none u.serialize (.ok u)) {p : List Str}
    (hp : u.path = .list p) {path : Str} {q f : Option Str} (ok : TailOK path q)
    (hs : ∀ c, path.head? = some c → Slash (Spec.isSpecial u.scheme) c)
    (hn : u.host = none → path ≠ [] ∧ ∀ t, path ≠ c!"/" :: c!"/" :: t) :
    Denotes env none (rootText u ++ tailText path q f)
      (.ok { u with path := .list (Spec.pathOf u.scheme path), query := q.map (Spec.queryEncode (Spec.isSpecial u.scheme)),
                    fragment := f.map Spec.fragmentEncode }) := by
  have hsc := schemeOK_text hw.auth.scheme
  have hlow := schemeOK_lower hw.auth.scheme
  have hscheme : ∀ {sc r : Str}, SchemeText sc → u.serialize = sc ++ u!":" ++ r → Spec.toLower sc = u.scheme := by
    intro sc r h1 h2
    rw [serialize_pastScheme, List.append_assoc] at h2
    have := (schemeText_unique hsc h1 h2).1
    rw [hlow] at this
    exact this.symm
  have hnonempty : ∀ {h}, u.host = some h → Spec.isSpecial u.scheme = true → hostSerialize h ≠ [] := by
    intro h hh hs h0
    rw [hostSerialize_nil h0] at hh
    exact hf ((hw.auth.special (by rw [← isSpecial_rec]; exact hs)).2 hh)
  generalize hx : u.serialize = T at hd
  generalize hr : Except.ok (ε := Err) u = R at hd
  cases hd with
  | file sc r x h1 h2 h3 => exact absurd ((hscheme h1 hx).symm.trans h2) hf
  | special sc sl p h1 h2 h3 h4 h5 h6 =>
    have hl := hscheme h1 hx
    rw [hl] at hr h2
    obtain ⟨k1, h, hh⟩ := url_host hr.symm
    have k1 := k1 h2
    rw [serialize_host hh, List.append_assoc] at hx
    obtain ⟨-, hx⟩ := schemeText_unique hsc h1 hx
    have hx := slashes_unique (sl := u!"//") (by intro c hc; simp at hc; exact .inl hc) h5 (authText_noSlash hw hh (hnonempty hh h2) _) (parts_noSlash h6 k1) hx
    have ha := parts_authority hw hh h6 (written_head hw hh true) hx.symm
    have := Denotes.special (env := env) (base := none) u.scheme u!"//" _ hsc (by rw [hlow]; exact h2) (by rw [hlow]; exact hf) (by simp)
      (by intro c hc; simp at hc; exact .inl hc) (parts_again h6 (f := f) ok (by rw [h2] at hs; exact hs) fun _ => k1)
    rw [hlow, url_again hr.symm, text_again ha] at this
    rwa [rootText_host hh]
  | specialSlashes sc sl p h1 h2 h3 h5 h6 =>
    have hx : u.serialize = sc ++ u!":" ++ (u!"//" ++ (sl ++ p.text)) := by rw [hx]; simp
    have hl := hscheme h1 hx
    rw [hl] at hr h2
    obtain ⟨k1, h, hh⟩ := url_host hr.symm
    have k1 := k1 h2
    rw [serialize_host hh, List.append_assoc] at hx
    obtain ⟨-, hx⟩ := schemeText_unique hsc h1 hx
    injection hx with _ hx
    injection hx with _ hx
    have hx := slashes_unique (sl := []) (by intro c hc; cases hc) h5 (authText_noSlash hw hh (hnonempty hh h2) _) (parts_noSlash h6 k1) hx
    have ha := parts_authority hw hh h6 (written_head hw hh true) hx.symm
    have := Denotes.special (env := env) (base := none) u.scheme u!"//" _ hsc (by rw [hlow]; exact h2) (by rw [hlow]; exact hf) (by simp)
      (by intro c hc; simp at hc; exact .inl hc) (parts_again h6 (f := f) ok (by rw [h2] at hs; exact hs) fun _ => k1)
    rw [hlow, url_again hr.symm, text_again ha] at this
    rwa [rootText_host hh]
  | sameScheme sc r b x h1 h2 h3 h4 => cases h4
  | authority sc p h1 h2 h3 =>
    have hx : u.serialize = sc ++ u!":" ++ (u!"//" ++ p.text) := by rw [hx]; simp
    have hl := hscheme h1 hx
    rw [hl] at hr h2
    obtain ⟨-, h, hh⟩ := url_host hr.symm
    rw [serialize_host hh, List.append_assoc] at hx
    obtain ⟨-, hx⟩ := schemeText_unique hsc h1 hx
    injection hx with _ hx
    injection hx with _ hx
    have ha := parts_authority hw hh h3 (written_head hw hh false) hx.symm
    have := Denotes.authority (env := env) (base := none) u.scheme _ hsc (by rw [hlow]; exact h2)
      (parts_again h3 (f := f) ok (by rw [h2] at hs; exact hs) fun h => by cases h)
    rw [hlow, url_again hr.symm, text_again ha] at this
    rw [rootText_host hh]
    rw [show u.scheme ++ u!":" ++ (u!"//" ++ (authText u h ++ tailText path q f)) =
      u.scheme ++ u!"://" ++ (authText u h ++ tailText path q f) by simp]
    exact this
  | rooted sc t q' f' h1 h2 h3 h4 =>
    have hl : Spec.toLower sc = u.scheme := by cases hr; rfl
    have hnull : u.host = none := by cases hr; rfl
    rw [hl] at h2
    cases path with
    | nil => exact absurd rfl (hn hnull).1
    | cons c t =>
      obtain rfl : c = c!"/" := by
        rcases hs c rfl with h | h
        · exact h
        · rw [h2] at h; cases h.1
      have := Denotes.rooted (env := env) (base := none) u.scheme t q f hsc (by rw [hlow]; exact h2) (by
        intro c hc hs
        rcases hs with rfl | hs
        · cases t with
          | nil => cases hc
          | cons d t =>
            cases hc
            exact (hn hnull).2 _ rfl
        · cases hs.1) ⟨fun c hc => ok.1 c (by simp [hc]), ok.2⟩
      rw [rootText_null hnull]
      have e : Spec.pathOf u.scheme (c!"/" :: t) = Spec.follow false [] (Spec.segmentsOf false t) := by
        show Spec.follow (Spec.isFile u.scheme) [] (Spec.segmentsOf (Spec.isSpecial u.scheme) t) = _
        have : Spec.isFile u.scheme = false := by
          unfold Spec.isFile
          simpa using hf
        rw [h2, this]
      rw [e]
      rw [hlow] at this
      rw [show u.scheme ++ u!":" ++ tailText (c!"/" :: t) q f = u.scheme ++ u!":/" ++ tailText t q f by
        rw [tailText_eq, tailText_eq]; simp]
      have e2 : ({ u with path := .list (Spec.follow false [] (Spec.segmentsOf false t)), query := q.map (Spec.queryEncode (Spec.isSpecial u.scheme)), fragment := f.map Spec.fragmentEncode } : Rec) =
          { scheme := u.scheme, path := .list (Spec.follow false [] (Spec.segmentsOf false t)), query := q.map (Spec.queryEncode false), fragment := f.map Spec.fragmentEncode } := by
        rw [h2]
        cases hr
        rfl
      rw [e2]
      exact this
  | «opaque» sc t q' f' h1 h2 h3 h4 => 
    cases hr
    cases hp
  | noBase r h1 h2 => cases hr
  | opaqueFragment f b t h1 => cases h1
  | opaqueOther r b t h1 h2 => cases h2
  | fileBase r b p x h1 h2 => cases h2
  | reference r b p x h1 h2 => cases h2

theorem pathTail_stop {path : Str} {q f : Option Str} (hp : ∀ c, path.head? = some c → Slash true c) :
    ∀ c, (tailText path q f).head? = some c → AuthorityEnd true c := by
  intro c hc
  rw [tailText_eq] at hc
  cases path with
  | nil => exact tailStr_end hc
  | cons d t =>
    cases hc
    exact slash_end (hp c rfl)

theorem denotes_again_file {u : Rec} (hw : WF true (HostWF env) u) (hf : u.scheme = u!"file") (hd : Denotes env none u.serialize (.ok u))
    {path : Str} {q f : Option Str} (ok : TailOK path q) (hps : ∀ c, path.head? = some c → Slash true c) :
    Denotes env none (rootText u ++ tailText path q f)
      (.ok { u with path := .list (Spec.pathOf u.scheme path), query := q.map (Spec.queryEncode (Spec.isSpecial u.scheme)),
                    fragment := f.map Spec.fragmentEncode }) := by
  have hsc := schemeOK_text hw.auth.scheme
  have hlow := schemeOK_lower hw.auth.scheme
  obtain ⟨h, hh⟩ : ∃ h, u.host = some h := by
    have := (hw.auth.special (by rw [← isSpecial_rec, hf]; decide)).1
    cases hh : u.host with
    | none => exact absurd hh this
    | some h => exact ⟨h, rfl⟩
  have hstop := authText_end hw hh true
  have hrest := written_head hw hh true
  have hx := serialize_host hh
  generalize writtenPath u ++ tailStr u.query u.fragment = rest at hx hrest
  have hlow' : Spec.toLower u.scheme = u!"file" := hlow.trans hf
  have hslash : Slash true 47 := .inl rfl
  have hgoal : ∀ {x}, FileText env none (u!"//" ++ (authText u h ++ tailText path q f)) x → Denotes env none (rootText u ++ tailText path q f) x := by
    intro x hx
    rw [rootText_host hh]
    exact .file _ _ _ hsc hlow' hx
  have hsp : Spec.isSpecial u.scheme = true := by rw [hf]; decide
  rw [hx] at hd
  generalize hT : u.scheme ++ c!":" :: c!"/" :: c!"/" :: (authText u h ++ rest) = T at hd
  generalize hr : Except.ok (ε := Err) u = R at hd
  have hno : ∀ {sc r : Str}, SchemeText sc → u.scheme ++ c!":" :: c!"/" :: c!"/" :: (authText u h ++ rest) = sc ++ u!":" ++ r → Spec.toLower sc = u!"file" := by
    intro sc r h1 h2
    rw [List.append_assoc] at h2
    rw [← (schemeText_unique hsc h1 h2).1, hlow']
  cases hd with
  | file sc r x h1 h2 h3 =>
    rw [List.append_assoc] at hT
    obtain ⟨-, hT⟩ := schemeText_unique hsc h1 hT
    have hfile : ∀ {path' q' f' x}, u = Spec.fileURL (some x) path' q' f' → u.host = some x ∧
        ({ u with path := .list (Spec.pathOf u.scheme path), query := q.map (Spec.queryEncode (Spec.isSpecial u.scheme)),
                    fragment := f.map Spec.fragmentEncode } : Rec) = Spec.fileURL (some x) (Spec.pathOf u!"file" path) q f := by
      intro path' q' f' x he
      rw [hsp, hf]
      rw [he]
      exact ⟨rfl, rfl⟩
    cases h3 with
    | noHost s1 s2 path' q' f' g1 g2 g3 g4 =>
      injection hT with _ hT
      injection hT with _ hT
      obtain ⟨k1, -⟩ := span_unique (stop := AuthorityEnd true) (p := authText u h) (p' := []) hT hstop (by simp) hrest (pathTail_stop g3)
      injection hr with hr
      rw [(hfile hr).2]
      refine hgoal ?_
      rw [k1]
      exact .noHost _ _ path q f hslash hslash hps ok
    | host s1 s2 ht path' q' f' v g1 g2 g3 g4 g5 g6 g7 g8 =>
      injection hT with _ hT
      injection hT with _ hT
      obtain ⟨k1, -⟩ := span_unique (stop := AuthorityEnd true) hT hstop g4 hrest (pathTail_stop g7)
      injection hr with hr
      rw [(hfile hr).2]
      refine hgoal ?_
      rw [k1]
      exact .host _ _ ht path q f v hslash hslash g3 g4 g5 g6 hps ok
    | badHost => cases hr
    | drive s1 s2 ht path' q' f' g1 g2 g3 g4 g5 =>
      injection hT with _ hT
      injection hT with _ hT
      have g6 : ∀ c ∈ ht, ¬ AuthorityEnd true c := by
        match ht, g3 with
        | [a, b], g3 =>
          simp only [Spec.isDrive, Bool.and_eq_true, decide_eq_true_eq, Bool.or_eq_true, beq_iff_eq] at g3
          intro c hc
          unfold Spec.Letter at g3
          unfold AuthorityEnd
          simp only [List.mem_cons, List.not_mem_nil, or_false] at hc
          omega
      obtain ⟨k1, -⟩ := span_unique (stop := AuthorityEnd true) hT hstop g6 hrest (pathTail_stop g4)
      injection hr with hr
      have k2 := (hfile hr).1
      rw [hh] at k2
      cases k2
      obtain ⟨b1, b2, b3⟩ := hw.auth.bare (.inr (.inr hf))
      have : authText u (.str []) = [] := by
        unfold authText Rec.serializeCredentials Rec.includesCredentials Rec.serializePort hostSerialize
        rw [b1, b2, b3]
        rfl
      rw [this] at k1
      rw [← k1] at g3
      cases g3
    | rooted s t q' f' g1 g2 g3 => exact absurd ⟨47, 47, _, hT.symm, hslash, hslash⟩ (rooted_not_two g2)
    | plain t q' f' g1 g2 g3 =>
      rw [tailText_eq] at hT
      cases t with
      | nil =>
        have : c!"/" = c!"?" ∨ c!"/" = c!"#" := tailStr_head q' f' _ (by
          show (List.append [] ([] ++ tailStr q' f')).head? = _
          rw [← hT]; rfl)
        omega
      | cons d t =>
        injection hT with hT _
        subst hT
        exact absurd hslash (g2 _ rfl)
    | path b p t q f hb => cases hb
    | same b q f hb => cases hb
    | empty b p hb => cases hb
  | special sc sl p h1 h2 h3 => exact absurd (hno h1 hT) h3
  | specialSlashes sc sl p h1 h2 h3 h5 h6 => 
    exact absurd (hno (r := u!"//" ++ (sl ++ p.text)) h1 (by rw [hT]; simp)) h3
  | sameScheme sc r b x h1 h2 h3 h4 => cases h4
  | authority sc p h1 h2 h3 =>
    rw [hno (r := u!"//" ++ p.text) h1 (by rw [hT]; simp)] at h2
    exact absurd h2 (by decide)
  | rooted sc t q' f' h1 h2 h3 h4 =>
    rw [hno (r := u!"/" ++ tailText t q' f') h1 (by rw [hT]; simp)] at h2
    exact absurd h2 (by decide)
  | «opaque» sc t q' f' h1 h2 h3 h4 =>
    rw [hno h1 hT] at h2
    exact absurd h2 (by decide)
  | noBase r h1 h2 => cases hr
  | opaqueFragment f b t h1 => cases h1
  | opaqueOther r b t h1 h2 => cases h2
  | fileBase r b p x h1 h2 => cases h2
  | reference r b p x h1 h2 => cases h2

end Urlstd
