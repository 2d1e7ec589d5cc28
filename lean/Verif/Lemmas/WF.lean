/-
Well-formed records: what every state of the parser keeps true, and what holds of the result.
-/
import Verif.Lemmas.Eval
import Verif.Lemmas.Host
import Verif.Spec.Url

set_option linter.unusedSimpArgs false
set_option linter.unusedVariables false

namespace Urlstd

open Spec (IsStr)

/-! ### Character sets -/

/-- a set of characters that percent-encoding with it stays inside -/
structure SafeSet (safe : Nat → Bool) : Prop where
  always : ∀ c, alwaysSafe c = true → safe c = true
  percent : safe 37 = true

theorem SafeSet.quote {safe : Nat → Bool} (h : SafeSet safe) {c : Nat} (hq : quoteSafe safe c = true) :
    safe c = true := by
  simp only [quoteSafe, Bool.or_eq_true, Bool.and_eq_true] at hq
  rcases hq with hq | hq
  · exact h.always c hq
  · exact hq.2

theorem alwaysSafe_cases {c : Nat} (h : alwaysSafe c = true) :
    (65 ≤ c ∧ c ≤ 90) ∨ (97 ≤ c ∧ c ≤ 122) ∨ (48 ≤ c ∧ c ≤ 57) ∨ c = 95 ∨ c = 46 ∨ c = 45 ∨ c = 126 := by
  simp only [alwaysSafe, isAlnum, isAlpha, isDigit, List.contains_eq_mem, List.mem_cons, List.not_mem_nil, or_false,
    Bool.or_eq_true, Bool.and_eq_true, decide_eq_true_eq] at h
  omega

/-- turn a membership test of a safe set into inequalities -/
macro "safe_simp" " at " h:ident : tactic =>
  `(tactic| simp only [safeUserinfo, safePath, safeSpecialQuery, safeQuery, safeFragment, safeC0,
      List.contains_eq_mem, List.mem_cons, List.not_mem_nil, or_false, Bool.and_eq_true, Bool.not_eq_true',
      decide_eq_false_iff_not, decide_eq_true_eq, not_or] at $h:ident)

macro "safe_goal" : tactic =>
  `(tactic| simp only [safeUserinfo, safePath, safeSpecialQuery, safeQuery, safeFragment, safeC0,
      List.contains_eq_mem, List.mem_cons, List.not_mem_nil, or_false, Bool.and_eq_true, Bool.not_eq_true',
      decide_eq_false_iff_not, decide_eq_true_eq, not_or])

theorem safeSet_userinfo : SafeSet safeUserinfo where
  always := by intro c h; have := alwaysSafe_cases h; safe_goal; omega
  percent := by decide
theorem safeSet_path : SafeSet safePath where
  always := by intro c h; have := alwaysSafe_cases h; safe_goal; omega
  percent := by decide
theorem safeSet_query : SafeSet safeQuery where
  always := by intro c h; have := alwaysSafe_cases h; safe_goal; omega
  percent := by decide
theorem safeSet_specialQuery : SafeSet safeSpecialQuery where
  always := by intro c h; have := alwaysSafe_cases h; safe_goal; omega
  percent := by decide
theorem safeSet_fragment : SafeSet safeFragment where
  always := by intro c h; have := alwaysSafe_cases h; safe_goal; omega
  percent := by decide
theorem safeSet_c0 : SafeSet safeC0 where
  always := by intro c h; have := alwaysSafe_cases h; safe_goal; omega
  percent := by decide

/-- the characters of a percent-encoded string -/
theorem mem_encoded {safe : Nat → Bool} (hsafe : SafeSet safe) {s : Str} (hs : IsStr s) {x : Nat}
    (hx : x ∈ utf8PercentEncode s safe) : safe x = true ∧ (x ∈ s ∨ x = 37 ∨ isHex x = true) := by
  rcases mem_percentEncoded hs hx with ⟨h1, h2⟩ | h | ⟨h1, h2⟩
  · exact ⟨hsafe.quote h2, .inl h1⟩
  · subst h; exact ⟨hsafe.percent, .inr (.inl rfl)⟩
  · exact ⟨hsafe.always _ h1, .inr (.inr h2)⟩

theorem encoded_safe {safe : Nat → Bool} (hsafe : SafeSet safe) {s : Str} (hs : IsStr s) :
    ∀ x ∈ utf8PercentEncode s safe, safe x = true := fun _ hx => (mem_encoded hsafe hs hx).1

/-! ### Legacy encodings -/

/-- the set a query is encoded with -/
def querySafe (special : Bool) : Nat → Bool := if special then safeSpecialQuery else safeQuery

theorem safeSet_querySafe (special : Bool) : SafeSet (querySafe special) := by
  cases special
  · exact safeSet_query
  · exact safeSet_specialQuery

theorem encodeStrict_bytes {f : Nat → Option Bytes} (hf : EncOK (.other f)) {s : Str} :
    ∀ {bs : Bytes}, (Encoding.other f).encodeStrict s = some bs → ∀ b ∈ bs, b < 256 := by
  induction s with
  | nil => intro bs h; simp [Encoding.encodeStrict] at h; subst h; simp
  | cons c cs ih =>
    intro bs h
    unfold Encoding.encodeStrict at h
    split at h
    · rename_i b bs' h1 h2
      simp only [Option.some.injEq] at h
      subst h
      intro x hx
      rcases List.mem_append.1 hx with hx | hx
      · exact hf c b h1 x hx
      · exact ih h2 x hx
    · simp at h

theorem mem_quoteFromBytes {safe : Nat → Bool} {bs : Bytes} (hb : ∀ b ∈ bs, b < 256) {x : Nat}
    (hx : x ∈ quoteFromBytes safe bs) : quoteSafe safe x = true ∨ x = 37 ∨ isHex x = true := by
  rw [quoteFromBytes_eq, List.mem_flatMap] at hx
  obtain ⟨b, hbm, hx⟩ := hx
  rcases mem_quoter (hb b hbm) hx with h | h | h
  · exact .inl h.2
  · exact .inr (.inl h)
  · exact .inr (.inr h.2)

theorem quoted_querySafe (special : Bool) {safe : Nat → Bool} (hsub : ∀ c, safe c = true → querySafe special c = true)
    {bs : Bytes} (hb : ∀ b ∈ bs, b < 256) {x : Nat} (hx : x ∈ quoteFromBytes safe bs) :
    querySafe special x = true := by
  rcases mem_quoteFromBytes hb hx with h | h | h
  · simp only [quoteSafe, Bool.or_eq_true, Bool.and_eq_true] at h
    rcases h with h | h
    · exact (safeSet_querySafe special).always _ h
    · exact hsub _ h.2
  · subst h; exact (safeSet_querySafe special).percent
  · exact (safeSet_querySafe special).always _ (alwaysSafe_hex h)

theorem xmlCharRef_bytes (c : Nat) : ∀ b ∈ xmlCharRef c, b < 256 := by
  intro b hb
  simp only [xmlCharRef, List.mem_append, List.mem_cons, List.not_mem_nil, or_false] at hb
  rcases hb with ((rfl | rfl) | hb) | rfl
  · decide
  · decide
  · have := natDec_digits c b hb
    simp only [isDigit, Bool.and_eq_true, decide_eq_true_eq] at this
    omega
  · decide

theorem slash_querySafe (special : Bool) : querySafe special 47 = true := by cases special <;> decide

/-- the characters of an encoded query -/
theorem stringPercentEncode_query (special : Bool) {e : Encoding} (he : EncOK e) {s : Str} (hs : IsStr s) :
    ∀ x ∈ stringPercentEncode s (querySafe special) e, querySafe special x = true := by
  intro x hx
  cases e with
  | utf8 => exact encoded_safe (safeSet_querySafe special) hs x hx
  | other f =>
    unfold stringPercentEncode at hx
    dsimp only at hx
    split at hx
    · rename_i bs hbs
      exact quoted_querySafe special (fun _ h => h) (encodeStrict_bytes he hbs) hx
    · rw [List.mem_flatMap] at hx
      obtain ⟨c, _, hx⟩ := hx
      have hb : ∀ b ∈ ((Encoding.other f).enc c).getD (xmlCharRef c), b < 256 := by
        cases hc : (Encoding.other f).enc c with
        | none => exact xmlCharRef_bytes c
        | some bs => exact he c bs hc
      unfold encodeFallback1 at hx
      dsimp only at hx
      split at hx
      · simp at hx
      · split at hx
        · refine quoted_querySafe special ?_ hb (by simpa [quoteVia] using hx)
          intro y hy
          simp at hy
          subst hy
          exact slash_querySafe special
        · exact quoted_querySafe special (fun _ h => h) hb (by simpa [quoteVia] using hx)

theorem encodeQuery_safe {e : Encoding} (he : EncOK e) (url : Rec) {s : Str} (hs : IsStr s) :
    ∀ x ∈ encodeQuery e url s, querySafe url.isSpecial x = true := by
  unfold encodeQuery
  exact stringPercentEncode_query url.isSpecial (by split <;> trivial) hs

/-! ### Well-formed records -/

/-- a normalized scheme -/
def SchemeOK (s : Str) : Prop :=
  ∃ c cs, s = c :: cs ∧ (97 ≤ c ∧ c ≤ 122) ∧ ∀ x ∈ cs, isSchemeChar x = true ∧ ¬ (65 ≤ x ∧ x ≤ 90)

/-- a segment of a list path -/
structure SegOK (special : Bool) (s : Str) : Prop where
  chars : ∀ c ∈ s, safePath c = true ∧ isPathSep special c = false
  single : isSingleDot s = false
  double : isDoubleDot s = false

/-- A list path. `k` says whether the record comes from the parser; the setters allow a few records
that the parser never returns, see `Spec.Deviant`. -/
structure SegsOK (k : Bool) (scheme : Str) (p : List Str) : Prop where
  segs : ∀ s ∈ p, SegOK (isSpecialScheme scheme) s
  drive : k = true → scheme = u!"file" → ∀ s, p.head? = some s → isWindowsDriveLetter s = true →
    isNormalizedWindowsDriveLetter s = true

/-- an opaque path -/
structure OpaqueOK (s : Str) : Prop where
  chars : ∀ c ∈ s, safeC0 c = true ∧ notQF c = true
  head : s.head? ≠ some c!"/"

/-- scheme, credentials, host and port; `P m h` says that `h` is a host as returned by
`Host.parse(_, m)` -/
structure AuthWF (k : Bool) (P : Bool → Host → Prop) (u : Rec) : Prop where
  scheme : SchemeOK u.scheme
  user : ∀ c ∈ u.username, safeUserinfo c = true
  pass : ∀ c ∈ u.password, safeUserinfo c = true
  port : ∀ p, u.port = some p → p ≤ 65535 ∧ isDefaultPort u.scheme p = false
  host : ∀ h, u.host = some h → P (!u.isSpecial) h
  special : u.isSpecial = true → u.host ≠ none ∧ (u.host = some (.str []) → u.scheme = u!"file")
  null : u.host = none → u.port = none
  loose : u.host = none ∨ u.host = some (.str []) ∨ u.scheme = u!"file" →
    u.username = [] ∧ u.password = [] ∧ (u.port = none ∨ k = false ∧ u.port = some 0)
  file : k = true → u.scheme = u!"file" → u.host ≠ some (.str u!"localhost")

theorem AuthWF.bare {P : Bool → Host → Prop} {u : Rec} (h : AuthWF true P u)
    (hb : u.host = none ∨ u.host = some (.str []) ∨ u.scheme = u!"file") :
    u.username = [] ∧ u.password = [] ∧ u.port = none := by
  obtain ⟨h1, h2, h3⟩ := h.loose hb
  exact ⟨h1, h2, h3.elim id fun h => by cases h.1⟩

/-- the path -/
def PathWF (k : Bool) (u : Rec) : Prop :=
  match u.path with
  | .list p => SegsOK k u.scheme p ∧ (u.isSpecial = true → p ≠ []) ∧ (u.host = none → p ≠ [])
  | .opaque s => OpaqueOK s ∧ u.host = none

def QueryWF (u : Rec) : Prop := ∀ q, u.query = some q → ∀ c ∈ q, querySafe u.isSpecial c = true

def FragWF (u : Rec) : Prop := ∀ f, u.fragment = some f → ∀ c ∈ f, safeFragment c = true

/-- an opaque path at the end of the URL does not end in a space -/
def TailWF (u : Rec) : Prop :=
  ∀ s, u.path = .opaque s → u.query = none → u.fragment = none → s.getLast? ≠ some 32

/-- a well-formed record -/
structure WF (k : Bool) (P : Bool → Host → Prop) (u : Rec) : Prop where
  auth : AuthWF k P u
  path : PathWF k u
  query : QueryWF u
  frag : FragWF u
  tail : TailWF u

theorem SegsOK.weak {k : Bool} {sc : Str} {p : List Str} (h : SegsOK true sc p) : SegsOK k sc p :=
  ⟨h.segs, fun _ => h.drive rfl⟩

theorem AuthWF.weak {k : Bool} {P : Bool → Host → Prop} {u : Rec} (h : AuthWF true P u) : AuthWF k P u :=
  { h with loose := fun hb => ⟨(h.bare hb).1, (h.bare hb).2.1, .inl (h.bare hb).2.2⟩, file := fun _ => h.file rfl }

theorem WF.weak {k : Bool} {P : Bool → Host → Prop} {u : Rec} (h : WF true P u) : WF k P u := by
  refine { h with auth := h.auth.weak, path := ?_ }
  have := h.path
  unfold PathWF at this ⊢
  split
  · next heq => rw [heq] at this; exact ⟨this.1.weak, this.2⟩
  · next heq => rw [heq] at this; exact this

/-- what `Host.parse` returns satisfies `P` -/
def HostSpec (env : Env) (P : Bool → Host → Prop) : Prop :=
  ∀ host m h, IsStr host → (hostParse env host m).res = .ok h → P m h

theorem hostSpec_true (env : Env) : HostSpec env (fun _ _ => True) := fun _ _ _ _ _ => trivial

theorem hostSpec_wf {env : Env} (hi : IdnaOK env) : HostSpec env (HostWF env) :=
  fun _ _ _ hs hp => hostParse_wf hi hs (log := (hostParse env _ _).log) (by rw [← hp])

/-! ### Remaining input -/

/-- what holds of the remaining input: code points only, not ending in a space -/
structure RestOK (s : Str) : Prop where
  str : IsStr s
  last : s.getLast? ≠ some 32

theorem IsStr.suffix {s t : Str} (h : IsStr s) (hs : t <:+ s) : IsStr t := fun c hc => h c (hs.subset hc)

theorem RestOK.suffix {s t : Str} (h : RestOK s) (hs : t <:+ s) : RestOK t := by
  refine ⟨IsStr.suffix h.str hs, ?_⟩
  obtain ⟨a, rfl⟩ := hs
  intro hl
  apply h.last
  rw [List.getLast?_append, hl]; rfl

end Urlstd
