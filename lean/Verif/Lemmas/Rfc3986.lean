/-
The path states of the parser and the string algorithm of RFC 3986.
-/
import Verif.Spec.Rfc3986
import Verif.Spec.Serialize
import Verif.Lemmas.Reference
import Verif.Lemmas.RoundTrip
import Verif.Lemmas.Surrogate

set_option linter.unusedSimpArgs false

namespace Urlstd

open Spec.Rfc
open Spec (IsStr)

/-! ### remove_dot_segments on lists of segments -/

/-- "/" before every segment -/
def slashText (l : List Str) : Str := l.flatMap fun s => 47 :: s

theorem slashText_eq (l : List Str) : serializePath (.list l) = slashText l := rfl
theorem slashText_nil : slashText [] = [] := rfl
theorem slashText_cons (s : Str) (l : List Str) : slashText (s :: l) = 47 :: (s ++ slashText l) := rfl
theorem slashText_append (a b : List Str) : slashText (a ++ b) = slashText a ++ slashText b := List.flatMap_append ..

theorem dropWhile_to {s : Str} (hs : 47 ∉ s) (t : Str) :
    ((s ++ 47 :: t).dropWhile (· != 47)) = 47 :: t := by
  induction s with
  | nil => rfl
  | cons c cs ih =>
    have : c ≠ 47 := fun h => hs (by simp [h])
    rw [List.cons_append, List.dropWhile_cons_of_pos (by simpa using this)]
    exact ih fun h => hs (by simp [h])

theorem takeWhile_to {s : Str} (hs : 47 ∉ s) {t : Str} (ht : t = [] ∨ ∃ t', t = 47 :: t') :
    ((s ++ t).takeWhile (· != 47)) = s := by
  induction s with
  | nil =>
    rcases ht with rfl | ⟨t', rfl⟩
    · rfl
    · rfl
  | cons c cs ih =>
    have : c ≠ 47 := fun h => hs (by simp [h])
    rw [List.cons_append, List.takeWhile_cons_of_pos (by simpa using this), ih fun h => hs (by simp [h])]

theorem cutLast_text {l : List Str} (h : ∀ s ∈ l, 47 ∉ s) : cutLast (slashText l) = slashText l.dropLast := by
  rcases List.eq_nil_or_concat l with rfl | ⟨init, s, rfl⟩
  · rfl
  · rw [List.concat_eq_append, List.dropLast_concat, slashText_append]
    have hs : 47 ∉ s.reverse := fun hc => h s (by simp) (List.mem_reverse.1 hc)
    unfold cutLast
    have : (slashText init ++ slashText [s]).reverse = s.reverse ++ 47 :: (slashText init).reverse := by
      simp [slashText]
    rw [this, dropWhile_to hs, List.tail_cons, List.reverse_reverse]

/-- one segment of a path -/
def rfcAdd (path : List Str) (e : Str) (slash : Bool) : List Str :=
  if e = u!".." then if slash then path.dropLast else path.dropLast ++ [[]]
  else if e = u!"." then if slash then path else path ++ [[]]
  else path ++ [e]

/-- the segments of a path one after the other -/
def rfcPieces : List Str → List Str → List Str
  | path, [] => path
  | path, [e] => rfcAdd path e false
  | path, e :: es => rfcPieces (rfcAdd path e true) es

theorem rfcAdd_mem {path : List Str} {e : Str} {b : Bool} (hp : ∀ s ∈ path, 47 ∉ s) (he : 47 ∉ e) :
    ∀ s ∈ rfcAdd path e b, 47 ∉ s := by
  intro s hs
  unfold rfcAdd at hs
  have hd : s ∈ path.dropLast → 47 ∉ s := fun h => hp s (List.dropLast_subset path h)
  split at hs
  · split at hs
    · exact hd hs
    · rcases List.mem_append.1 hs with h | h
      · exact hd h
      · simp at h; subst h; simp
  · split at hs
    · split at hs
      · exact hp s hs
      · rcases List.mem_append.1 hs with h | h
        · exact hp s h
        · simp at h; subst h; simp
    · rcases List.mem_append.1 hs with h | h
      · exact hp s h
      · simp at h; subst h; exact he

theorem removeLoop_nil (n : Nat) (out : Str) : removeLoop n [] out = out := by
  cases n with
  | zero => rfl
  | succ n => unfold removeLoop; rw [if_pos rfl]

/-- step 2E on a segment that is no dot segment -/
theorem removeLoop_move {n : Nat} {e t out : Str} (he : 47 ∉ e) (h1 : e ≠ u!".") (h2 : e ≠ u!"..")
    (ht : t = [] ∨ ∃ t', t = 47 :: t') :
    removeLoop (n + 1) (47 :: (e ++ t)) out = removeLoop n t (out ++ 47 :: e) := by
  have key : ∀ x : Str, 47 ∉ x → (x ++ [47] <+: e ++ t ∨ e ++ t = x) → e = x := by
    intro x hx hh
    have ht' := takeWhile_to he ht
    rcases hh with ⟨y, hy⟩ | hy
    · rw [← hy, List.append_assoc] at ht'
      rw [← ht']
      exact takeWhile_to hx (.inr ⟨_, rfl⟩)
    · rw [hy] at ht'
      rw [← ht']
      have := takeWhile_to hx (t := []) (.inl rfl)
      rwa [List.append_nil] at this
  have hfs : firstSegment (47 :: (e ++ t)) = 47 :: e := by
    unfold firstSegment
    show 47 :: (e ++ t).takeWhile (· != 47) = _
    rw [takeWhile_to he ht]
  conv => lhs; unfold removeLoop
  rw [if_neg (by simp), if_neg (by simp), if_neg (by simp), if_neg, if_neg, if_neg, if_neg, if_neg (by simp), hfs]
  · congr 1
    simp
  · intro h
    exact h2 (key u!".." (by decide) (.inr (List.cons.inj h).2))
  · rintro ⟨y, hy⟩
    exact h2 (key u!".." (by decide) (.inl ⟨y, (List.cons.inj hy).2⟩))
  · intro h
    exact h1 (key u!"." (by decide) (.inr (List.cons.inj h).2))
  · rintro ⟨y, hy⟩
    exact h1 (key u!"." (by decide) (.inl ⟨y, (List.cons.inj hy).2⟩))

theorem slashText_form {es : List Str} : slashText es = [] ∨ ∃ t, slashText es = 47 :: t := by
  cases es with
  | nil => exact .inl rfl
  | cons e es => exact .inr ⟨_, rfl⟩

theorem removeLoop_pieces (es : List Str) : ∀ (path : List Str) (n : Nat), (∀ s ∈ es, 47 ∉ s) → (∀ s ∈ path, 47 ∉ s) →
    (slashText es).length < n → removeLoop n (slashText es) (slashText path) = slashText (rfcPieces path es) := by
  induction es with
  | nil => intro path n _ _ _; rw [slashText_nil, removeLoop_nil]; rfl
  | cons e es ih =>
    intro path n he hp hn
    have he0 : 47 ∉ e := he e (by simp)
    cases es with
    | nil =>
      show _ = slashText (rfcAdd path e false)
      rw [slashText_cons, slashText_nil] at hn ⊢
      have slash : ∀ m o, 0 < m → removeLoop m u!"/" o = o ++ [47] := by
        intro m o hm
        obtain ⟨m, rfl⟩ : ∃ k, m = k + 1 := ⟨m - 1, by omega⟩
        have := removeLoop_move (n := m) (e := []) (t := []) (out := o) (by simp) (by decide) (by decide) (.inl rfl)
        rw [removeLoop_nil] at this
        exact this
      unfold rfcAdd
      simp only [Bool.false_eq_true, if_false]
      by_cases h2 : e = u!".."
      · subst h2
        simp only [List.length_cons, List.length_append, List.length_nil] at hn
        obtain ⟨m, rfl⟩ : ∃ m, n = m + 1 := ⟨n - 1, by omega⟩
        rw [if_pos rfl, slashText_append, ← cutLast_text hp]
        show removeLoop m u!"/" (cutLast (slashText path)) = _
        exact slash m _ (by omega)
      · by_cases h1 : e = u!"."
        · subst h1
          simp only [List.length_cons, List.length_append, List.length_nil] at hn
          obtain ⟨m, rfl⟩ : ∃ m, n = m + 1 := ⟨n - 1, by omega⟩
          rw [if_neg h2, if_pos rfl, slashText_append]
          show removeLoop m u!"/" (slashText path) = _
          exact slash m _ (by omega)
        · rw [if_neg h2, if_neg h1, slashText_append]
          simp only [List.length_cons] at hn
          obtain ⟨m, rfl⟩ : ∃ m, n = m + 1 := ⟨n - 1, by omega⟩
          rw [removeLoop_move he0 h1 h2 (.inl rfl), removeLoop_nil]
          simp [slashText]
    | cons d ds =>
      show _ = slashText (rfcPieces (rfcAdd path e true) (d :: ds))
      have hlen : (slashText (e :: d :: ds)).length = 1 + e.length + (slashText (d :: ds)).length := by
        rw [slashText_cons]; simp only [List.length_cons, List.length_append]; omega
      obtain ⟨m, rfl⟩ : ∃ m, n = m + 1 := ⟨n - 1, by omega⟩
      rw [← ih (rfcAdd path e true) m (fun s hs => he s (by simp [hs])) (rfcAdd_mem hp he0) (by omega)]
      unfold rfcAdd
      simp only [if_true]
      by_cases h2 : e = u!".."
      · subst h2
        rw [if_pos rfl, ← cutLast_text hp]
        rfl
      · by_cases h1 : e = u!"."
        · subst h1
          rw [if_neg h2, if_pos rfl]
          rfl
        · rw [if_neg h2, if_neg h1, slashText_append, slashText_cons e]
          rw [removeLoop_move he0 h1 h2 slashText_form]
          simp [slashText]

theorem removeDots_text {es : List Str} (he : ∀ s ∈ es, 47 ∉ s) :
    removeDotSegments (slashText es) = slashText (rfcPieces [] es) :=
  removeLoop_pieces es [] _ he (by simp) (by omega)

/-- segments that are no dot segments are kept -/
theorem rfcPieces_prefix {a : List Str} (ha : ∀ s ∈ a, s ≠ u!"." ∧ s ≠ u!"..") {es : List Str} (hne : es ≠ []) :
    ∀ path, rfcPieces path (a ++ es) = rfcPieces (path ++ a) es := by
  induction a with
  | nil => intro path; simp
  | cons s ss ih =>
    intro path
    have h := ha s (by simp)
    have hne' : ss ++ es ≠ [] := by simp [hne]
    have : rfcPieces path (s :: (ss ++ es)) = rfcPieces (rfcAdd path s true) (ss ++ es) := by
      cases hx : ss ++ es with
      | nil => exact absurd hx hne'
      | cons _ _ => rfl
    rw [List.cons_append, this, ih fun x hx => ha x (by simp [hx])]
    unfold rfcAdd
    rw [if_neg h.2, if_neg h.1]
    simp

/-! ### Percent-encoded dots -/

/-- the text has no percent-encoded dot -/
def NoPctDot (s : Str) : Prop := ¬ (u!"%2e" <:+: s) ∧ ¬ (u!"%2E" <:+: s)

theorem pct_not_dot : ∀ b < 256, quoteSafe safePath b = false → pctByte b ≠ [37, 50, 101] ∧ pctByte b ≠ [37, 50, 69] := by
  decide +kernel

/-- every "%" is followed by "2e" or "2E" -/
inductive DotsOnly : Str → Prop
  | nil : DotsOnly []
  | char {c : Nat} {r : Str} (hc : c ≠ 37) (hr : DotsOnly r) : DotsOnly (c :: r)
  | dot {x : Nat} {r : Str} (hx : x = 101 ∨ x = 69) (hr : DotsOnly r) : DotsOnly (37 :: 50 :: x :: r)

theorem quoter_peel {bs : Bytes} {c : Nat} {r : Str} (hc : c ≠ 37) (h : bs.flatMap (quoter safePath) = c :: r) :
    ∃ bs', bs = c :: bs' ∧ bs'.flatMap (quoter safePath) = r := by
  cases bs with
  | nil => cases h
  | cons b bs =>
    rw [List.flatMap_cons] at h
    unfold quoter at h
    split at h
    · obtain ⟨h1, h2⟩ := List.cons.inj h
      exact ⟨bs, by rw [h1], h2⟩
    · obtain ⟨h1, -⟩ := List.cons.inj h
      exact absurd h1.symm hc

theorem encode_dots {d : Str} (hd : DotsOnly d) : ∀ {bs : Bytes}, IsBytes bs → bs.flatMap (quoter safePath) = d → bs = d := by
  induction hd with
  | nil =>
    intro bs _ h
    cases bs with
    | nil => rfl
    | cons b bs =>
      rw [List.flatMap_cons] at h
      unfold quoter at h
      split at h <;> cases h
  | char hc hr ih =>
    intro bs hb h
    obtain ⟨bs', rfl, h'⟩ := quoter_peel hc h
    rw [ih (fun x hx => hb x (by simp [hx])) h']
  | @dot x r hx hr ih =>
    intro bs hb h
    cases bs with
    | nil => cases h
    | cons b bs =>
      rw [List.flatMap_cons] at h
      cases hs : quoteSafe safePath b with
      | true =>
        unfold quoter at h
        rw [if_pos hs] at h
        obtain ⟨rfl, h2⟩ := List.cons.inj h
        obtain ⟨b2, rfl, h3⟩ := quoter_peel (by decide) h2
        obtain ⟨b3, rfl, h4⟩ := quoter_peel (by omega) h3
        rw [ih (fun y hy => hb y (by simp [hy])) h4]
      | false =>
        unfold quoter at h
        rw [if_neg (by simp [hs])] at h
        have hp := pct_not_dot b (hb b (by simp)) hs
        obtain ⟨h1, h2⟩ := List.cons.inj h
        obtain ⟨h3, h4⟩ := List.cons.inj h2
        obtain ⟨h5, -⟩ := List.cons.inj h4
        exfalso
        rcases hx with rfl | rfl
        · exact hp.1 (by unfold pctByte; rw [h3, h5])
        · exact hp.2 (by unfold pctByte; rw [h3, h5])

theorem toScalar_back (s : Str) (hs : IsStr s) : (∀ c ∈ toScalar s, c < 128) → toScalar s = s := by
  refine toScalar_ind (C := fun s => (∀ c ∈ toScalar s, c < 128) → toScalar s = s) (fun _ => rfl) ?_ ?_ ?_ s hs
  · intro c r _ _ h ih hall
    rw [h] at hall ⊢
    rw [ih fun x hx => hall x (by simp [hx])]
  · intro a b r _ _ h _ hall
    rw [h] at hall
    have := hall _ (.head _)
    omega
  · intro a r _ h _ hall
    rw [h] at hall
    have := hall _ (.head _)
    omega

/-- a text whose encoding has no "%" apart from percent-encoded dots is its own encoding -/
theorem encode_dotsOnly {a d : Str} (ha : IsStr a) (hd : DotsOnly d) (hascii : ∀ c ∈ d, c < 128)
    (hdec : utf8Decode d = d) (h : utf8PercentEncode a safePath = d) : a = d := by
  rw [utf8PercentEncode_false] at h
  have hb := encode_dots hd (utf8Encode_bytes a ha) h
  have hs : toScalar a = d := by
    have := usv_core a ha
    rw [toScalar_eq_combine a ha, ← this, hb, hdec]
  rw [← hs]
  exact (toScalar_back a ha (by rw [hs]; exact hascii)).symm

theorem encode_singleDot {a : Str} (ha : IsStr a) (hn : NoPctDot a) (h : isSingleDot (utf8PercentEncode a safePath) = true) :
    utf8PercentEncode a safePath = u!"." := by
  unfold isSingleDot at h
  rw [List.contains_iff_mem] at h
  simp only [List.mem_cons, List.not_mem_nil, or_false] at h
  rcases h with h | h | h
  · exact h
  · have := encode_dotsOnly ha (.dot (.inl rfl) .nil) (by decide) (by decide) h
    exact absurd ⟨[], [], by rw [this]; rfl⟩ hn.1
  · have := encode_dotsOnly ha (.dot (.inr rfl) .nil) (by decide) (by decide) h
    exact absurd ⟨[], [], by rw [this]; rfl⟩ hn.2

theorem encode_doubleDot {a : Str} (ha : IsStr a) (hn : NoPctDot a) (h : isDoubleDot (utf8PercentEncode a safePath) = true) :
    utf8PercentEncode a safePath = u!".." := by
  unfold isDoubleDot at h
  rw [List.contains_iff_mem] at h
  simp only [List.mem_cons, List.not_mem_nil, or_false] at h
  rcases h with h | h | h | h | h | h | h | h | h
  · exact h
  · have := encode_dotsOnly ha (.char (by decide) (.dot (.inl rfl) .nil)) (by decide) (by decide) h
    exact absurd ⟨u!".", [], by rw [this]; rfl⟩ hn.1
  · have := encode_dotsOnly ha (.char (by decide) (.dot (.inr rfl) .nil)) (by decide) (by decide) h
    exact absurd ⟨u!".", [], by rw [this]; rfl⟩ hn.2
  · have := encode_dotsOnly ha (.dot (.inl rfl) (.char (by decide) .nil)) (by decide) (by decide) h
    exact absurd ⟨[], u!".", by rw [this]; rfl⟩ hn.1
  · have := encode_dotsOnly ha (.dot (.inr rfl) (.char (by decide) .nil)) (by decide) (by decide) h
    exact absurd ⟨[], u!".", by rw [this]; rfl⟩ hn.2
  · have := encode_dotsOnly ha (.dot (.inl rfl) (.dot (.inl rfl) .nil)) (by decide) (by decide) h
    exact absurd ⟨[], u!"%2e", by rw [this]; rfl⟩ hn.1
  · have := encode_dotsOnly ha (.dot (.inl rfl) (.dot (.inr rfl) .nil)) (by decide) (by decide) h
    exact absurd ⟨[], u!"%2E", by rw [this]; rfl⟩ hn.1
  · have := encode_dotsOnly ha (.dot (.inr rfl) (.dot (.inl rfl) .nil)) (by decide) (by decide) h
    exact absurd ⟨[], u!"%2e", by rw [this]; rfl⟩ hn.2
  · have := encode_dotsOnly ha (.dot (.inr rfl) (.dot (.inr rfl) .nil)) (by decide) (by decide) h
    exact absurd ⟨[], u!"%2E", by rw [this]; rfl⟩ hn.2

/-! ### The path states -/

theorem shortenPath_other {sc : Str} (h : sc ≠ u!"file") (p : List Str) : shortenPath sc p = p.dropLast := by
  unfold shortenPath
  split
  · rfl
  · rw [if_neg (by simp [h])]; rfl
  · rfl

/-- no first segment is a drive letter -/
def NoDrive (sc : Str) (p : List Str) : Prop := sc = u!"file" → ∀ s, p.head? = some s → isWindowsDriveLetter s = false

theorem NoDrive.dropLast {sc : Str} {p : List Str} (h : NoDrive sc p) : NoDrive sc p.dropLast := by
  intro hsc s hs
  refine h hsc s ?_
  match p, hs with
  | x :: y :: l, hs => exact hs

theorem isWindows_normalized {s : Str} (h : isWindowsDriveLetter s = false) : isNormalizedWindowsDriveLetter s = false := by
  unfold isNormalizedWindowsDriveLetter
  rw [h]
  rfl

theorem shortenPath_drive {sc : Str} {p : List Str} (h : NoDrive sc p) : shortenPath sc p = p.dropLast := by
  unfold shortenPath
  split
  · rfl
  · next s =>
    rw [if_neg]
    · rfl
    · simp only [Bool.and_eq_true, beq_iff_eq, not_and]
      intro hsc
      rw [isWindows_normalized (h hsc s rfl)]
      decide
  · rfl

theorem NoDrive.rfcAdd {sc : Str} {p : List Str} {a : Str} (h : NoDrive sc p) (ha : sc = u!"file" → isWindowsDriveLetter a = false)
    (b : Bool) : NoDrive sc (rfcAdd p a b) := by
  intro hsc s hs
  have h0 : isWindowsDriveLetter [] = false := by decide
  have hcase : ∀ (l : List Str) (x : Str), (∀ s, l.head? = some s → isWindowsDriveLetter s = false) →
      isWindowsDriveLetter x = false → ∀ s, (l ++ [x]).head? = some s → isWindowsDriveLetter s = false := by
    intro l x hl hx s hs
    cases l with
    | nil => cases hs; exact hx
    | cons y ys => exact hl s hs
  have hdrop : ∀ s, p.dropLast.head? = some s → isWindowsDriveLetter s = false := by
    intro s hs
    refine h hsc s ?_
    match p, hs with
    | x :: y :: l, hs => exact hs
  unfold Urlstd.rfcAdd at hs
  split at hs
  · split at hs
    · exact hdrop s hs
    · exact hcase _ _ hdrop h0 s hs
  · split at hs
    · split at hs
      · exact h hsc s hs
      · exact hcase _ _ (h hsc) h0 s hs
    · exact hcase _ _ (h hsc) (ha hsc) s hs

theorem addSegment_rfc {sc : Str} {a : Str} (ha : IsStr a) (hn : NoPctDot a) {p : List Str} (hp : NoDrive sc p)
    (hd : sc = u!"file" → isWindowsDriveLetter (utf8PercentEncode a safePath) = false) (b : Bool) :
    addSegment sc p a b = rfcAdd p (utf8PercentEncode a safePath) b := by
  have e2 : isDoubleDot (utf8PercentEncode a safePath) = true ↔ utf8PercentEncode a safePath = u!".." :=
    ⟨encode_doubleDot ha hn, fun h => by rw [h]; decide⟩
  have e1 : isSingleDot (utf8PercentEncode a safePath) = true ↔ utf8PercentEncode a safePath = u!"." :=
    ⟨encode_singleDot ha hn, fun h => by rw [h]; decide⟩
  have e0 : (sc == u!"file" && p.isEmpty && isWindowsDriveLetter (utf8PercentEncode a safePath)) = false := by
    by_cases hsc : sc = u!"file"
    · rw [hd hsc]; simp
    · simp [hsc]
  unfold addSegment rfcAdd
  simp only [e2, e1, e0, shortenPath_drive hp, Bool.false_eq_true, if_false]

theorem addPieces_rfc {sc : Str} (ps : List Str) (h : ∀ a ∈ ps, IsStr a ∧ NoPctDot a ∧
    (sc = u!"file" → isWindowsDriveLetter (utf8PercentEncode a safePath) = false)) :
    ∀ p, NoDrive sc p → addPieces sc p ps = rfcPieces p (ps.map fun a => utf8PercentEncode a safePath) := by
  induction ps with
  | nil => intro p _; rfl
  | cons a as ih =>
    intro p hp
    obtain ⟨h1, h2, h3⟩ := h a (by simp)
    cases as with
    | nil => exact addSegment_rfc h1 h2 hp h3 false
    | cons d ds =>
      show addPieces sc (addSegment sc p a true) (d :: ds) = rfcPieces (rfcAdd p (utf8PercentEncode a safePath) true) _
      rw [addSegment_rfc h1 h2 hp h3, ih (fun x hx => h x (by simp [hx])) _ (hp.rfcAdd h3 _)]

/-- the pieces of a path text, put together again -/
theorem pathPieces_text {sp : Bool} {t : Str} (h : sp = true → 92 ∉ t) :
    slashText (pathPieces sp t) = 47 :: t ∧ ∀ s ∈ pathPieces sp t, 47 ∉ s ∧ s <:+: t := by
  have hsep : ∀ c ∈ t, isPathSep sp c = true → c = 47 := by
    intro c hc hs
    unfold isPathSep at hs
    simp only [Bool.or_eq_true, Bool.and_eq_true, decide_eq_true_eq] at hs
    rcases hs with hs | ⟨h1, h2⟩
    · exact hs
    · subst h2; exact absurd hc (h h1)
  clear h
  induction t with
  | nil => exact ⟨rfl, by intro s hs; simp [pathPieces] at hs; subst hs; exact ⟨by simp, List.infix_refl _⟩⟩
  | cons c cs ih =>
    obtain ⟨ih1, ih2⟩ := ih fun x hx => hsep x (by simp [hx])
    cases hc : isPathSep sp c with
    | true =>
      have := hsep c (by simp) hc
      subst this
      rw [pathPieces_sep hc]
      refine ⟨by rw [slashText_cons, ih1]; rfl, ?_⟩
      intro s hs
      rcases List.mem_cons.1 hs with rfl | hs
      · exact ⟨by simp, List.nil_infix⟩
      · exact ⟨(ih2 s hs).1, (ih2 s hs).2.trans (List.suffix_cons _ _).isInfix⟩
    | false =>
      have hne : c ≠ 47 := by
        rintro rfl
        unfold isPathSep at hc
        simp at hc
      rw [pathPieces_char hc]
      cases hpp : pathPieces sp cs with
      | nil => exact absurd hpp (pathPieces_ne_nil sp cs)
      | cons x xs =>
        rw [hpp] at ih1 ih2
        have ht : x ++ slashText xs = cs := (List.cons.inj ih1).2
        refine ⟨by show 47 :: (c :: x ++ slashText xs) = _; rw [List.cons_append, ht], ?_⟩
        intro s hs
        rcases List.mem_cons.1 (show s ∈ (c :: x) :: xs from hs) with rfl | hs
        · refine ⟨?_, ?_⟩
          · intro h
            rcases List.mem_cons.1 h with h | h
            · exact hne h.symm
            · exact (ih2 x (by simp)).1 h
          · exact ⟨[], slashText xs, by rw [List.nil_append, List.cons_append, ht]⟩
        · exact ⟨(ih2 s (by simp [hs])).1, (ih2 s (by simp [hs])).2.trans (List.suffix_cons _ _).isInfix⟩

theorem NoPctDot.sub {s t : Str} (h : NoPctDot t) (hs : s <:+: t) : NoPctDot s :=
  ⟨fun hc => h.1 (hc.trans hs), fun hc => h.2 (hc.trans hs)⟩

theorem encode_slashText (l : List Str) :
    slashText (l.map fun a => utf8PercentEncode a safePath) = utf8PercentEncode (slashText l) safePath := by
  induction l with
  | nil => rfl
  | cons a as ih =>
    rw [List.map_cons, slashText_cons, slashText_cons, ih]
    cases as with
    | nil =>
      rw [slashText_nil, encode_nil, List.append_nil, List.append_nil, encode_cons (by decide)]; rfl
    | cons d ds =>
      rw [encode_cons (by decide), slashText_cons d, encode_append (by decide), encode_cons (by decide)]
      show 47 :: (_ ++ ([47] ++ _)) = [47] ++ (_ ++ [47] ++ _)
      simp

/-- The path of the parser is that of RFC 3986, for a text without percent-encoded dots (and without backslashes, if they are
separators). `init` are the segments kept from the base. -/
theorem addPieces_text {sc : Str} {sp : Bool} {t : Str} (ht : IsStr t) (hn : NoPctDot t)
    (hb : sp = true → 92 ∉ t) {init : List Str} (hi : ∀ s ∈ init, 47 ∉ s ∧ s ≠ u!"." ∧ s ≠ u!"..")
    (hd : NoDrive sc init)
    (htd : sc = u!"file" → ∀ a ∈ pathPieces sp t, isWindowsDriveLetter (utf8PercentEncode a safePath) = false) :
    slashText (addPieces sc init (pathPieces sp t)) =
      removeDotSegments (slashText init ++ 47 :: utf8PercentEncode t safePath) := by
  obtain ⟨h1, h2⟩ := pathPieces_text hb
  have hstr : ∀ s ∈ pathPieces sp t, IsStr s := fun s hs c hc => ht c ((h2 s hs).2.subset hc)
  rw [addPieces_rfc _ (fun s hs => ⟨hstr s hs, hn.sub (h2 s hs).2, fun h => htd h s hs⟩) _ hd]
  have e : (47 :: utf8PercentEncode t safePath) = slashText ((pathPieces sp t).map fun a => utf8PercentEncode a safePath) := by
    rw [encode_slashText, h1, encode_cons (by decide)]; rfl
  rw [e, ← slashText_append, removeDots_text, rfcPieces_prefix (fun s hs => (hi s hs).2)
    (by simpa using pathPieces_ne_nil sp t)]
  · simp
  · intro s hs
    rcases List.mem_append.1 hs with hs | hs
    · exact (hi s hs).1
    · obtain ⟨a, ha, rfl⟩ := List.mem_map.1 hs
      intro hc
      rcases mem_percentEncoded (hstr a ha) hc with h | h | h
      · exact (h2 a ha).1 h.1
      · omega
      · exact absurd h.2 (by decide)

/-! ### Query and fragment -/

section
variable {env : Env} {e : Encoding} {base : Option Rec}

theorem notHash_run {q : Str} (hq : 35 ∉ q) {t : Str} (ht : t = [] ∨ ∃ t', t = 35 :: t') :
    (q ++ t).takeWhile notHash = q ∧ (q ++ t).dropWhile notHash = t := by
  have hall : ∀ c ∈ q, notHash c = true := by
    intro c hc
    have : c ≠ 35 := fun h => hq (h ▸ hc)
    simpa [notHash] using this
  have hend : ∀ c, t.head? = some c → notHash c = false := by
    intro c hc
    rcases ht with rfl | ⟨t', rfl⟩
    · cases hc
    · simp at hc; subst hc; decide
  exact ⟨takeWhile_append hall hend, dropWhile_append hall hend⟩

/-- behind a path: query and fragment -/
theorem eval_afterPath_any {st : PState} {url : Rec} (hst : eval env e base none st [] url = (.ok (), url))
    (hq0 : url.query = none) (hf0 : url.fragment = none) {q f : Option Str} (hq : ∀ x, q = some x → 35 ∉ x) :
    (afterPath st (tailStr q f) url).andThen env e base none =
      (.ok (), { url with query := q.map (encodeQuery e url), fragment := f.map (utf8PercentEncode · safeFragment) }) := by
  cases q with
  | none =>
    cases f with
    | none =>
      show eval env e base none st [] url = _
      rw [hst]
      obtain ⟨_, _, _, _, _, _, _, _⟩ := url
      cases hq0
      cases hf0
      rfl
    | some f =>
      show eval env e base none .fragment f { url with fragment := some [] } = _
      rw [eval_fragment_any rfl]
      simp only [Option.map_none, Option.map_some, List.nil_append]
      rw [← hq0]
  | some q =>
    have h35 := hq q rfl
    obtain ⟨t, ht, htail, hfr⟩ : ∃ t, (t = [] ∨ ∃ t', t = 35 :: t') ∧ tailStr (some q) f = 63 :: (q ++ t) ∧
        f.map (utf8PercentEncode · safeFragment) =
          match t with | [] => none | _ :: g => some (utf8PercentEncode g safeFragment) := by
      cases f with
      | none => exact ⟨[], .inl rfl, rfl, rfl⟩
      | some f => exact ⟨35 :: f, .inr ⟨f, rfl⟩, rfl, rfl⟩
    rw [htail, hfr]
    show eval env e base none .query (q ++ t) { url with query := some [] } = _
    obtain ⟨h1, h2⟩ := notHash_run h35 ht
    rw [eval_query_any (url := { url with query := some [] }) rfl hf0, h1, h2]
    rfl

theorem eval_path_tail {url : Rec} {p : List Str} (hp : url.path = .list p) (hq0 : url.query = none)
    (hf0 : url.fragment = none) {t : Str} (ht : ∀ c ∈ t, notQF c = true) {q f : Option Str} (hq : ∀ x, q = some x → 35 ∉ x) :
    eval env e base none .path (t ++ tailStr q f) url =
      (.ok (), { url with
        path := .list (addPieces url.scheme p (pathPieces url.isSpecial t))
        query := q.map (encodeQuery e url), fragment := f.map (utf8PercentEncode · safeFragment) }) := by
  have hend : ∀ c, (tailStr q f).head? = some c → notQF c = false := by
    intro c hc
    rcases tailStr_head q f c hc with rfl | rfl <;> decide
  rw [eval_step _ _ _ _ (by decide)]
  show (sPath none (t ++ tailStr q f) url).andThen env e base none = _
  unfold sPath pathRest pathText
  rw [hp]
  dsimp only [Option.isSome]
  simp only [Bool.false_eq_true, if_false]
  rw [takeWhile_append ht hend, dropWhile_append ht hend]
  rw [eval_afterPath_any (st := .opaquePath) (url := { url with path := .list (addPieces url.scheme p (pathPieces url.isSpecial t)) }) ?_ hq0 hf0 hq]
  · rfl
  · exact eval_opaquePath_nil _

/-- the components of a base URL with other path, query and fragment -/
def Rec.resolved (b : Rec) (p : List Str) (q f : Option Str) : Rec := { b with path := .list p, query := q, fragment := f }

theorem tail_noScheme (q f : Option Str) : takeScheme (tailStr q f) = none := by
  cases h : tailStr q f with
  | nil => rfl
  | cons c cs =>
    have := tailStr_head q f c (by rw [h]; rfl)
    refine takeScheme_head cs ?_
    unfold Spec.Letter
    omega

/-- a reference without path -/
theorem resolve_empty {b : Rec} {p : List Str} (hp : b.path = .list p) (hnf : b.scheme ≠ u!"file") {q f : Option Str}
    (hq : ∀ x, q = some x → 35 ∉ x) (hprep : prepared (tailStr q f) none = tailStr q f) :
    (basicParse env (tailStr q f) (some b) e).toExcept =
      .ok (b.resolved p ((q.map (encodeQuery e b)).or b.query)
        (f.map (utf8PercentEncode · safeFragment))) := by
  rw [parse_noScheme (by rw [hprep]; exact tail_noScheme q f), hprep, eval_noScheme_relative hp hnf]
  unfold sRelative Rec.resolved
  dsimp only
  rw [if_neg hnf]
  cases q with
  | none =>
    cases f with
    | none =>
      show Fin.toExcept (eval env e (some b) none .eof [] _) = _
      rw [eval_eof, ← hp]; rfl
    | some f =>
      have ht : tailStr none (some f) = 35 :: f := rfl
      rw [ht]
      dsimp only
      rw [if_neg (by simp), if_neg (by decide), if_pos rfl]
      show Fin.toExcept (eval env e (some b) none .fragment f { copyBase b {} with fragment := some [] }) = _
      rw [eval_fragment_any (url := { copyBase b {} with fragment := some [] }) rfl, ← hp]; rfl
  | some q =>
    have := eval_afterPath_any (env := env) (e := e) (base := some b) (st := .eof)
      (url := { copyBase b {} with query := none }) (eval_eof ..) rfl rfl (f := f) hq
    obtain ⟨t, ht⟩ : ∃ t, tailStr (some q) f = 63 :: t := by cases f <;> exact ⟨_, rfl⟩
    rw [ht] at this ⊢
    dsimp only
    rw [if_neg (by simp), if_pos rfl]
    show Fin.toExcept (eval env e (some b) none .query t { copyBase b {} with query := some [] }) = _
    have h' : eval env e (some b) none .query t { copyBase b {} with query := some [] } = _ := this
    rw [h', ← hp]
    rfl

/-- a reference that starts with one slash -/
theorem resolve_slash {b : Rec} {p : List Str} (hp : b.path = .list p) (hnf : b.scheme ≠ u!"file") {t : Str}
    (ht : ∀ c ∈ t, notQF c = true) (h1 : t.head? ≠ some 47) (h2 : b.isSpecial = true → t.head? ≠ some 92)
    {q f : Option Str} (hq : ∀ x, q = some x → 35 ∉ x)
    (hprep : prepared (47 :: (t ++ tailStr q f)) none = 47 :: (t ++ tailStr q f)) :
    (basicParse env (47 :: (t ++ tailStr q f)) (some b) e).toExcept =
      .ok (b.resolved (addPieces b.scheme [] (pathPieces b.isSpecial t)) (q.map (encodeQuery e b))
        (f.map (utf8PercentEncode · safeFragment))) := by
  have hhead : ∀ x, x = 47 ∨ x = 92 → t.head? ≠ some x → (t ++ tailStr q f).head? ≠ some x := by
    intro x hx hn
    cases t with
    | nil =>
      intro h
      have := tailStr_head q f x h
      omega
    | cons c cs => exact hn
  rw [parse_noScheme (by rw [hprep]; exact takeScheme_head _ (by unfold Spec.Letter; omega)), hprep,
    eval_noScheme_relative hp hnf]
  unfold sRelative Rec.resolved
  dsimp only
  rw [if_neg hnf, if_pos (by simp)]
  show Fin.toExcept (eval env e (some b) none .relativeSlash (t ++ tailStr q f) { scheme := b.scheme }) = _
  rw [eval_step _ _ _ _ (by decide)]
  show Fin.toExcept ((sRelativeSlash (some b) (t ++ tailStr q f) { scheme := b.scheme }).andThen env e (some b) none) = _
  unfold sRelativeSlash
  dsimp only
  have hsp : ({ scheme := b.scheme } : Rec).isSpecial = b.isSpecial := rfl
  rw [if_neg, if_neg]
  · show Fin.toExcept (eval env e (some b) none .path (t ++ tailStr q f) { scheme := b.scheme, username := b.username, password := b.password, host := b.host, port := b.port }) = _
    rw [eval_path_tail rfl rfl rfl ht hq]
    rfl
  · exact hhead 47 (.inl rfl) h1
  · intro h
    rw [hsp] at h
    simp only [Bool.and_eq_true, Bool.or_eq_true, decide_eq_true_eq] at h
    rcases h.2 with h' | h'
    · exact hhead 92 (.inr rfl) (h2 h.1) h'
    · exact hhead 47 (.inl rfl) h1 h'

/-- a reference that starts with a path segment -/
theorem resolve_segment {b : Rec} {p : List Str} (hp : b.path = .list p) (hnf : b.scheme ≠ u!"file") {c : Nat} {t : Str}
    (ht : ∀ x ∈ c :: t, notQF x = true) (hc : c ≠ 47) (h2 : b.isSpecial = true → c ≠ 92)
    {q f : Option Str} (hq : ∀ x, q = some x → 35 ∉ x) (hns : ¬ Spec.HasScheme (c :: t ++ tailStr q f))
    (hprep : prepared (c :: t ++ tailStr q f) none = c :: t ++ tailStr q f) :
    (basicParse env (c :: t ++ tailStr q f) (some b) e).toExcept =
      .ok (b.resolved (addPieces b.scheme p.dropLast (pathPieces b.isSpecial (c :: t))) (q.map (encodeQuery e b))
        (f.map (utf8PercentEncode · safeFragment))) := by
  have hnq := ht c (by simp)
  unfold notQF at hnq
  simp only [Bool.not_eq_true', Bool.or_eq_false_iff, decide_eq_false_iff_not] at hnq
  rw [parse_noScheme (by rw [hprep]; exact takeScheme_none hns), hprep, eval_noScheme_relative hp hnf]
  unfold sRelative Rec.resolved
  rw [List.cons_append]
  dsimp only
  rw [if_neg hnf, if_neg, if_neg hnq.1, if_neg hnq.2,
    shortenRec_list (u := { copyBase b {} with query := none }) hp]
  · show Fin.toExcept (eval env e (some b) none .path (c :: t ++ tailStr q f) { copyBase b {} with query := none, path := .list (shortenPath b.scheme p) }) = _
    rw [eval_path_tail rfl rfl rfl ht hq, shortenPath_other hnf]
    rfl
  · intro h
    simp only [Bool.or_eq_true, Bool.and_eq_true, decide_eq_true_eq] at h
    rcases h with h | h
    · exact hc h
    · exact h2 h.1 h.2

/-! ### A base with the scheme "file" -/

/-- the components a file URL does not have -/
def Rec.bareFile (b : Rec) : Prop := b.scheme = u!"file" ∧ b.username = [] ∧ b.password = [] ∧ b.port = none

theorem Rec.bareFile.eq {b : Rec} (h : b.bareFile) (p : List Str) (q f : Option Str) :
    ({ scheme := u!"file", host := b.host, path := .list p, query := q, fragment := f } : Rec) = b.resolved p q f := by
  obtain ⟨sc, us, pw, ho, po, pa, qu, fr⟩ := b
  obtain ⟨h1, h2, h3, h4⟩ := h
  dsimp only at h1 h2 h3 h4
  subst h1 h2 h3 h4
  rfl

/-- a query or fragment alone; a file URL as base and an empty reference do not follow the RFC, see C36 -/
theorem resolve_empty_file {b : Rec} {p : List Str} (hp : b.path = .list p) (hb : b.bareFile) {q f : Option Str}
    (hne : tailStr q f ≠ []) (hq : ∀ x, q = some x → 35 ∉ x) (hprep : prepared (tailStr q f) none = tailStr q f) :
    (basicParse env (tailStr q f) (some b) e).toExcept =
      .ok (b.resolved p ((q.map (encodeQuery e b)).or b.query) (f.map (utf8PercentEncode · safeFragment))) := by
  rw [parse_noScheme (by rw [hprep]; exact tail_noScheme q f), hprep, eval_noScheme_file hp hb.1]
  cases q with
  | none =>
    cases f with
    | none => exact absurd rfl hne
    | some f =>
      have ht : tailStr none (some f) = 35 :: f := rfl
      rw [ht]
      unfold sFile sFilePath
      dsimp only
      rw [if_neg (by simp), if_pos hb.1, if_neg (by decide), if_pos rfl]
      show Fin.toExcept (eval env e (some b) none .fragment f { ({} : Rec) with scheme := u!"file", host := b.host, path := b.path, query := b.query, fragment := some [] }) = _
      rw [eval_fragment_any rfl, hp, ← hb.eq]; rfl
  | some q =>
    have := eval_afterPath_any (env := env) (e := e) (base := some b) (st := .eof)
      (url := { ({} : Rec) with scheme := u!"file", host := b.host, path := b.path }) (eval_eof ..) rfl rfl (f := f) hq
    obtain ⟨t, ht⟩ : ∃ t, tailStr (some q) f = 63 :: t := by cases f <;> exact ⟨_, rfl⟩
    rw [ht] at this ⊢
    unfold sFile sFilePath
    dsimp only
    rw [if_neg (by simp), if_pos hb.1, if_pos rfl]
    show Fin.toExcept (eval env e (some b) none .query t { ({} : Rec) with scheme := u!"file", host := b.host, path := b.path, query := some [] }) = _
    have h' : eval env e (some b) none .query t { ({} : Rec) with scheme := u!"file", host := b.host, path := b.path, query := some [] } = _ := this
    rw [h', hp, ← hb.eq]
    have he : encodeQuery e { ({} : Rec) with scheme := u!"file", host := b.host, path := .list p } = encodeQuery e b := by
      unfold encodeQuery Rec.isSpecial
      rw [hb.1]
    rw [he]
    rfl

theorem encodeQuery_scheme {u b : Rec} (h : u.scheme = b.scheme) : encodeQuery e u = encodeQuery e b := by
  unfold encodeQuery Rec.isSpecial
  rw [h]

theorem resolve_slash_file {b : Rec} {p : List Str} (hp : b.path = .list p) (hb : b.bareFile)
    (hd : NoDrive b.scheme p) {t : Str}
    (ht : ∀ c ∈ t, notQF c = true) (h1 : t.head? ≠ some 47) (h2 : t.head? ≠ some 92)
    {q f : Option Str} (hq : ∀ x, q = some x → 35 ∉ x)
    (hprep : prepared (47 :: (t ++ tailStr q f)) none = 47 :: (t ++ tailStr q f)) :
    (basicParse env (47 :: (t ++ tailStr q f)) (some b) e).toExcept =
      .ok (b.resolved (addPieces b.scheme [] (pathPieces b.isSpecial t)) (q.map (encodeQuery e b))
        (f.map (utf8PercentEncode · safeFragment))) := by
  have hhead : ∀ x, x = 47 ∨ x = 92 → t.head? ≠ some x → (t ++ tailStr q f).head? ≠ some x := by
    intro x hx hn
    cases t with
    | nil =>
      intro h
      have := tailStr_head q f x h
      omega
    | cons c cs => exact hn
  rw [parse_noScheme (by rw [hprep]; exact takeScheme_head _ (by unfold Spec.Letter; omega)), hprep,
    eval_noScheme_file hp hb.1]
  unfold sFile
  dsimp only
  rw [if_pos (by simp)]
  show Fin.toExcept (eval env e (some b) none .fileSlash (t ++ tailStr q f) { scheme := u!"file", host := some (.str []) }) = _
  rw [eval_step _ _ _ _ (by decide)]
  show Fin.toExcept ((sFileSlash (some b) (t ++ tailStr q f) { scheme := u!"file", host := some (.str []) }).andThen env e (some b) none) = _
  have hsl : sFileSlash (some b) (t ++ tailStr q f) { scheme := u!"file", host := some (.str []) } =
      sFileSlashPath (some b) (t ++ tailStr q f) { scheme := u!"file", host := some (.str []) } := by
    unfold sFileSlash
    have h47 := hhead 47 (.inl rfl) h1
    have h92 := hhead 92 (.inr rfl) h2
    split
    · next c cs heq =>
      rw [heq] at h47 h92
      rw [if_neg, heq]
      intro h
      simp only [Bool.or_eq_true, decide_eq_true_eq] at h
      rcases h with rfl | rfl
      · exact h47 rfl
      · exact h92 rfl
    · next heq => rw [heq]
  have hpa : sFileSlashPath (some b) (t ++ tailStr q f) { scheme := u!"file", host := some (.str []) } =
      .to .path (t ++ tailStr q f) { scheme := u!"file", host := b.host } := by
    unfold sFileSlashPath
    dsimp only
    rw [if_pos hb.1, hp]
    cases p with
    | nil => rfl
    | cons s l =>
      dsimp only
      rw [isWindows_normalized (hd hb.1 s rfl), Bool.and_false, if_neg (by decide)]
  rw [hsl, hpa]
  show Fin.toExcept (eval env e (some b) none .path (t ++ tailStr q f) { scheme := u!"file", host := b.host }) = _
  rw [eval_path_tail rfl rfl rfl ht hq, ← hb.eq, encodeQuery_scheme (b := b) hb.1.symm, Rec.isSpecial, Rec.isSpecial, hb.1]
  rfl

theorem resolve_segment_file {b : Rec} {p : List Str} (hp : b.path = .list p) (hb : b.bareFile)
    (hd : NoDrive b.scheme p) {c : Nat} {t : Str}
    (ht : ∀ x ∈ c :: t, notQF x = true) (hc : c ≠ 47) (h2 : c ≠ 92)
    {q f : Option Str} (hq : ∀ x, q = some x → 35 ∉ x) (hns : ¬ Spec.HasScheme (c :: t ++ tailStr q f))
    (hprep : prepared (c :: t ++ tailStr q f) none = c :: t ++ tailStr q f)
    (hsd : startsWithWindowsDriveLetter (c :: t ++ tailStr q f) = false) :
    (basicParse env (c :: t ++ tailStr q f) (some b) e).toExcept =
      .ok (b.resolved (addPieces b.scheme p.dropLast (pathPieces b.isSpecial (c :: t))) (q.map (encodeQuery e b))
        (f.map (utf8PercentEncode · safeFragment))) := by
  have hnq := ht c (by simp)
  unfold notQF at hnq
  simp only [Bool.not_eq_true', Bool.or_eq_false_iff, decide_eq_false_iff_not] at hnq
  rw [parse_noScheme (by rw [hprep]; exact takeScheme_none hns), hprep, eval_noScheme_file hp hb.1]
  unfold sFile sFilePath
  rw [List.cons_append] at hsd ⊢
  dsimp only
  rw [if_neg (by simp [hc, h2]), if_pos hb.1, if_neg hnq.1, if_neg hnq.2, hsd, Bool.not_false, if_pos rfl,
    shortenRec_list (u := { scheme := u!"file", host := b.host, path := b.path }) hp]
  show Fin.toExcept (eval env e (some b) none .path (c :: t ++ tailStr q f) { scheme := u!"file", host := b.host, path := .list (shortenPath u!"file" p) }) = _
  rw [eval_path_tail rfl rfl rfl ht hq, ← hb.1, shortenPath_drive hd]
  rw [← hb.eq, ← encodeQuery_scheme (e := e) (u := { scheme := u!"file", host := b.host, path := .list p.dropLast }) hb.1.symm]
  rw [hb.1, Rec.isSpecial, Rec.isSpecial, hb.1]
  rfl

/-! ### Merging -/

/-- all but the last segment of the base's path, with the slash -/
theorem merge_text {p : List Str} (hp : ∀ s ∈ p, 47 ∉ s) {auth : Bool} (h : p = [] → auth = true) (t : Str) :
    Spec.Rfc.merge auth (slashText p) t = slashText p.dropLast ++ 47 :: t := by
  unfold Spec.Rfc.merge
  rcases List.eq_nil_or_concat p with rfl | ⟨l, s, rfl⟩
  · rw [if_pos ⟨h rfl, rfl⟩]; rfl
  · rw [List.concat_eq_append] at hp ⊢
    rw [if_neg, slashText_append, List.dropLast_concat]
    · have hs : 47 ∉ s.reverse := by simpa using hp s (by simp)
      have e : (slashText l ++ slashText [s]).reverse = s.reverse ++ 47 :: (slashText l).reverse := by
        simp [slashText]
      rw [e, dropWhile_to hs]
      simp
    · rintro ⟨-, h⟩
      rw [slashText_append] at h
      simp [slashText] at h

/-- the encoding of a text that does not start with a slash -/
theorem encode_head {c : Nat} {t : Str} (hs : IsStr (c :: t)) (hc : c ≠ 47) :
    utf8PercentEncode (c :: t) safePath ≠ [] ∧ ¬ [47] <+: utf8PercentEncode (c :: t) safePath := by
  obtain ⟨h1, h2⟩ := pathPieces_text (sp := false) (t := c :: t) (by simp)
  cases hp : pathPieces false (c :: t) with
  | nil => rw [hp] at h1; cases h1
  | cons a l =>
    rw [hp] at h1 h2
    have h3 := (List.cons.inj h1).2
    have hasub := h2 a (by simp)
    have ha : IsStr a := fun x hx => hs x (hasub.2.subset hx)
    have hane : a ≠ [] := by
      rintro rfl
      cases l with
      | nil => cases h3
      | cons d l => exact hc (List.cons.inj h3).1.symm
    have henc := encode_slashText (a :: l)
    rw [h1, encode_cons (by decide)] at henc
    have henc : utf8PercentEncode a safePath ++ slashText (l.map fun a => utf8PercentEncode a safePath) =
        utf8PercentEncode (c :: t) safePath := (List.cons.inj henc).2
    rw [← henc]
    cases he : utf8PercentEncode a safePath with
    | nil =>
      exact absurd (encode_dotsOnly ha .nil (by simp) (by decide) he) hane
    | cons x xs =>
      refine ⟨by simp, ?_⟩
      rintro ⟨r, hr⟩
      have hx : x = 47 := ((List.cons.inj hr).1).symm
      have hm : (47 : Nat) ∈ utf8PercentEncode a safePath := by rw [he, hx]; simp
      rcases mem_percentEncoded ha hm with h | h | h
      · exact hasub.1 h.1
      · omega
      · exact absurd h.2 (by decide)

theorem slashText_spec (p : List Str) : Spec.pathSerializer (.list p) = slashText p := by
  show Spec.segmentsText p = _
  induction p with
  | nil => rfl
  | cons s l ih => rw [slashText_cons, ← ih]; rfl

/-! ### Drive letters -/

theorem drive_iff {s : Str} : isWindowsDriveLetter s = true ↔ Spec.Rfc.Drive s := by
  unfold isWindowsDriveLetter Spec.Rfc.Drive Spec.Letter
  constructor
  · intro h
    split at h
    · next a b =>
      simp only [Bool.and_eq_true, Bool.or_eq_true, beq_iff_eq, isAlpha, decide_eq_true_eq] at h
      obtain ⟨h1, h2⟩ := h
      refine ⟨a, by omega, ?_⟩
      rcases h2 with rfl | rfl
      · exact .inl rfl
      · exact .inr rfl
    · cases h
  · rintro ⟨l, h1, rfl | rfl⟩
    · simp [isAlpha]; omega
    · simp [isAlpha]; omega

theorem drive_enc {a : Str} (ha : IsStr a) (h : Spec.Rfc.Drive (utf8PercentEncode a safePath)) : Spec.Rfc.Drive a := by
  have key : ∀ l x, Spec.Letter l → x = 58 ∨ x = 124 → utf8PercentEncode a safePath = [l, x] → a = [l, x] := by
    intro l x hl hx h
    unfold Spec.Letter at hl
    have hlt : ∀ c ∈ [l, x], c < 128 := by
      intro c hc
      simp only [List.mem_cons, List.not_mem_nil, or_false] at hc
      omega
    refine encode_dotsOnly ha (.char (by omega) (.char (by omega) .nil)) hlt ?_ h
    exact utf8Decode_ascii hlt
  obtain ⟨l, hl, h | h⟩ := h
  · exact ⟨l, hl, .inl (key l _ hl (.inl rfl) h)⟩
  · exact ⟨l, hl, .inr (key l _ hl (.inr rfl) h)⟩

theorem slashText_split {l : List Str} {a t : Str} (h : slashText l = 47 :: t) (ha : a ∈ l) : Spec.Rfc.SegmentIn t a := by
  obtain ⟨l1, l2, rfl⟩ := List.append_of_mem ha
  rw [slashText_append, slashText_cons] at h
  have hy : slashText l2 = [] ∨ (slashText l2).head? = some 47 := by
    rcases slashText_form (es := l2) with h | ⟨t, h⟩
    · exact .inl h
    · exact .inr (by rw [h]; rfl)
  cases l1 with
  | nil => exact ⟨[], slashText l2, (List.cons.inj h).2.symm, .inl rfl, hy⟩
  | cons s l =>
    rw [slashText_cons] at h
    refine ⟨s ++ slashText l ++ [47], slashText l2, ?_, .inr (by simp), hy⟩
    have := (List.cons.inj h).2
    simp [← this]

theorem noDrive_pieces {sp : Bool} {t : Str} (hb : sp = true → 92 ∉ t) (ht : IsStr t)
    (hd : ∀ s, Spec.Rfc.SegmentIn t s → ¬ Spec.Rfc.Drive s) :
    ∀ a ∈ pathPieces sp t, isWindowsDriveLetter (utf8PercentEncode a safePath) = false := by
  intro a ha
  obtain ⟨h1, h2⟩ := pathPieces_text hb
  have hs : IsStr a := fun c hc => ht c ((h2 a ha).2.subset hc)
  cases h : isWindowsDriveLetter (utf8PercentEncode a safePath) with
  | false => rfl
  | true => exact absurd (drive_enc hs (drive_iff.1 h)) (hd a (slashText_split h1 ha))

theorem noDrive_start {t : Str} (hb : 92 ∉ t) (hq : ∀ c ∈ t, notQF c = true) (q f : Option Str)
    (hd : ∀ s, Spec.Rfc.SegmentIn t s → ¬ Spec.Rfc.Drive s) : startsWithWindowsDriveLetter (t ++ tailStr q f) = false := by
  have htail : ∀ c ∈ (tailStr q f).head?, c = 63 ∨ c = 35 := fun c hc => tailStr_head q f c hc
  cases h : startsWithWindowsDriveLetter (t ++ tailStr q f) with
  | false => rfl
  | true =>
    exfalso
    unfold startsWithWindowsDriveLetter at h
    split at h
    · next a b rest heq =>
      simp only [Bool.and_eq_true] at h
      obtain ⟨h1, h2⟩ := h
      have hD := drive_iff.1 h1
      match t, heq with
      | [], heq =>
        have := htail a (by rw [show tailStr q f = _ from heq]; rfl)
        obtain ⟨l, hl, h | h⟩ := hD
        · injection h with h _; unfold Spec.Letter at hl; omega
        · injection h with h _; unfold Spec.Letter at hl; omega
      | [x], heq =>
        have := htail b (by rw [show tailStr q f = _ from (List.cons.inj heq).2]; rfl)
        obtain ⟨l, hl, h | h⟩ := hD
        · injection h with _ h; injection h with h _; omega
        · injection h with _ h; injection h with h _; omega
      | x :: y :: t', heq =>
        have e1 : x = a := (List.cons.inj heq).1
        have e2 : y = b := (List.cons.inj (List.cons.inj heq).2).1
        have e3 : t' ++ tailStr q f = rest := (List.cons.inj (List.cons.inj heq).2).2
        rw [← e1, ← e2] at hD
        rw [← e3] at h2
        refine hd [x, y] ⟨[], t', rfl, .inl rfl, ?_⟩ hD
        cases t' with
        | nil => exact .inl rfl
        | cons z zs =>
          right
          have hz := hq z (by simp)
          unfold notQF at hz
          simp only [Bool.not_eq_true', Bool.or_eq_false_iff, decide_eq_false_iff_not] at hz
          simp only [List.cons_append, List.contains_iff_mem, List.mem_cons, List.not_mem_nil, or_false] at h2
          have : z ≠ 92 := by rintro rfl; exact hb (by simp)
          have : z = 47 := by omega
          rw [this]; rfl
    · cases h

end

end Urlstd
