/-
The invariant of the parser without state override, state by state.
-/
import Verif.Lemmas.WFStep
import Verif.Lemmas.HostErr

set_option linter.unusedSimpArgs false
set_option linter.unusedVariables false

namespace Urlstd

open Spec (IsStr)

/-! ### Steps go to suffixes of the input -/

/-- the remaining input after a step is a suffix of the one before -/
def SOut.Suf (s : Str) : SOut → Prop
  | .to _ r _ => r <:+ s
  | .fail _ _ => True

theorem suf_ite {c : Prop} [Decidable c] {s : Str} {a b : SOut} (ha : a.Suf s) (hb : b.Suf s) :
    (if c then a else b).Suf s := by split <;> assumption

theorem suf_tail {c : Nat} {cs : Str} : cs <:+ c :: cs := ⟨[c], rfl⟩
theorem suf_tail' {s : Str} : s.tail <:+ s := List.tail_suffix s

theorem SOut.Suf.mono {s t : Str} {o : SOut} (h : o.Suf s) (hs : s <:+ t) : o.Suf t := by
  cases o with
  | to st r u => exact List.IsSuffix.trans h hs
  | fail e u => trivial

theorem afterPath_suf (st : PState) (r : Str) (u : Rec) : (afterPath st r u).Suf r := by
  unfold afterPath
  cases r with
  | nil => exact List.suffix_rfl
  | cons c cs => exact suf_ite suf_tail suf_tail

theorem sHostEnd_suf (env : Env) (ov : Bool) (b r : Str) (u : Rec) : (sHostEnd env ov b r u).Suf r := by
  unfold sHostEnd
  refine suf_ite trivial (suf_ite List.suffix_rfl ?_)
  split
  · trivial
  · exact List.suffix_rfl

theorem sPortEnd_suf (env : Env) (ov : Bool) (b r : Str) (u : Rec) : (sPortEnd env ov b r u).Suf r := by
  unfold sPortEnd
  refine suf_ite List.suffix_rfl ?_
  split
  · trivial
  · exact suf_ite trivial List.suffix_rfl

theorem sFilePath_suf (base : Option Rec) (r : Str) (u : Rec) : (sFilePath base r u).Suf r := by
  unfold sFilePath
  split
  · exact List.suffix_rfl
  · refine suf_ite ?_ List.suffix_rfl
    cases r with
    | nil => exact List.suffix_rfl
    | cons c cs =>
      refine suf_ite suf_tail (suf_ite suf_tail (suf_ite ?_ List.suffix_rfl))
      cases shortenRec _ with
      | none => trivial
      | some u => exact List.suffix_rfl

theorem sFileSlashPath_suf (base : Option Rec) (r : Str) (u : Rec) : (sFileSlashPath base r u).Suf r := by
  unfold sFileSlashPath
  split
  · exact List.suffix_rfl
  · refine suf_ite ?_ List.suffix_rfl
    dsimp only
    split
    · refine suf_ite ?_ List.suffix_rfl
      split
      · exact List.suffix_rfl
      · trivial
    · exact List.suffix_rfl

theorem sstep_suf (env : Env) (e : Encoding) (base : Option Rec) (ov : Option PState) (st : PState)
    (rest : Str) (url : Rec) : (sstep env e base ov st rest url).Suf rest := by
  have hHost : ∀ r u, (sHost env ov r u).Suf r := by
    intro r u
    unfold sHost
    refine suf_ite List.suffix_rfl ?_
    dsimp only
    have hs := hostSpan_suffix u.isSpecial false r
    unfold sHostGo
    split
    · rename_i h; rw [h] at hs; exact (sHostEnd_suf ..).mono hs
    · rename_i c cs h
      rw [h] at hs
      refine suf_ite (suf_ite trivial (suf_ite hs ?_)) ((sHostEnd_suf ..).mono hs)
      split
      · trivial
      · exact List.IsSuffix.trans suf_tail hs
  cases st
  case eof => trivial
  case scheme => trivial
  case authority =>
    show (sAuthority rest url).Suf rest
    unfold sAuthority
    dsimp only
    split
    · exact List.suffix_rfl
    · rename_i ui h hsp
      refine suf_ite trivial ?_
      have h1 := splitAtLast_eq hsp
      have h2 := List.takeWhile_append_dropWhile (p := notEnd url.isSpecial) (l := rest)
      refine ⟨ui ++ [64], ?_⟩
      conv => rhs; rw [← h2, h1]
      simp
  case fileHost =>
    show (sFileHost env ov rest url).Suf rest
    unfold sFileHost sFileHostEnd
    have h2 := List.takeWhile_append_dropWhile (p := notFileHostEnd) (l := rest)
    have h3 : rest.dropWhile notFileHostEnd <:+ rest := List.dropWhile_suffix _
    refine suf_ite ⟨[], by rw [List.nil_append, h2]⟩ (suf_ite h3 ?_)
    split
    · trivial
    · exact h3
  case fileSlash =>
    show (sFileSlash base rest url).Suf rest
    unfold sFileSlash
    split
    · exact suf_ite suf_tail (sFileSlashPath_suf ..)
    · exact sFileSlashPath_suf ..
  case file =>
    show (sFile base rest url).Suf rest
    unfold sFile
    split
    · exact suf_ite suf_tail (sFilePath_suf ..)
    · exact sFilePath_suf ..
  case fragment =>
    show (sFragment rest url).Suf rest
    unfold sFragment
    refine suf_ite (List.nil_suffix) ?_
    split
    · trivial
    · exact List.nil_suffix
  case hostname => exact hHost rest url
  case host => exact hHost rest url
  case noScheme =>
    show (sNoScheme base rest url).Suf rest
    unfold sNoScheme
    split
    · trivial
    · exact suf_ite trivial (suf_ite suf_tail' (suf_ite List.suffix_rfl List.suffix_rfl))
  case opaquePath => exact (afterPath_suf ..).mono (List.dropWhile_suffix _)
  case pathOrAuthority => exact suf_ite suf_tail' List.suffix_rfl
  case pathStart =>
    show (sPathStart ov rest url).Suf rest
    unfold sPathStart
    split
    · refine suf_ite List.suffix_rfl (suf_ite ?_ List.suffix_rfl)
      split
      · exact List.suffix_rfl
      · trivial
    · exact suf_ite suf_tail (suf_ite List.suffix_rfl (suf_ite suf_tail (suf_ite suf_tail List.suffix_rfl)))
  case path =>
    show (sPath ov rest url).Suf rest
    unfold sPath
    split
    · trivial
    · refine (afterPath_suf ..).mono ?_
      unfold pathRest
      split
      · exact List.nil_suffix
      · exact List.dropWhile_suffix _
  case port =>
    show (sPort env ov rest url).Suf rest
    have hs : rest.dropWhile isDigit <:+ rest := List.dropWhile_suffix _
    unfold sPort sPortGo
    split
    · exact (sPortEnd_suf ..).mono List.nil_suffix
    · rename_i h
      rw [h] at hs
      exact suf_ite ((sPortEnd_suf ..).mono hs) trivial
  case query =>
    show (sQuery e ov rest url).Suf rest
    unfold sQuery
    refine suf_ite List.nil_suffix ?_
    split
    · trivial
    · refine List.IsSuffix.trans suf_tail' ?_
      unfold queryRest
      split
      · exact List.nil_suffix
      · exact List.dropWhile_suffix _
  case relativeSlash =>
    show (sRelativeSlash base rest url).Suf rest
    unfold sRelativeSlash
    refine suf_ite suf_tail' (suf_ite suf_tail' ?_)
    split
    · trivial
    · exact List.suffix_rfl
  case relative =>
    show (sRelative base rest url).Suf rest
    unfold sRelative
    split
    · trivial
    · refine suf_ite trivial ?_
      split
      · exact List.suffix_rfl
      · refine suf_ite suf_tail (suf_ite suf_tail (suf_ite suf_tail ?_))
        split
        · exact List.suffix_rfl
        · trivial
  case schemeStart =>
    show (sScheme base ov rest url).Suf rest
    unfold sScheme
    split
    · exact suf_ite List.suffix_rfl trivial
    · rename_i b r h
      obtain ⟨c, cs, he, _⟩ := takeScheme_some h
      have hs : r <:+ rest := ⟨(c :: cs) ++ [58], by rw [he]; simp⟩
      refine suf_ite hs (suf_ite hs ?_)
      exact suf_ite (suf_ite hs hs) (suf_ite (List.IsSuffix.trans suf_tail' hs) hs)
  case specialAuthorityIgnoreSlashes => exact List.dropWhile_suffix _
  case specialAuthoritySlashes => exact suf_ite (List.drop_suffix _ _) List.suffix_rfl
  case specialRelativeOrAuthority => exact suf_ite (List.drop_suffix _ _) List.suffix_rfl

/-! ### The invariant -/

/-- what holds in a state of the parser (without state override) -/
def PInv (k : Bool) (P : Bool → Host → Prop) (base : Option Rec) (rest : Str) (url : Rec) : PState → Prop
  | .schemeStart | .noScheme => url = {}
  | .specialRelativeOrAuthority =>
    ∃ b, base = some b ∧ b.isSpecial = true ∧ b.scheme ≠ u!"file" ∧ url = { scheme := b.scheme }
  | .pathOrAuthority => ∃ sc, url = { scheme := sc } ∧ SchemeOK sc ∧ isSpecialScheme sc = false
  | .relative => ∃ b sc, base = some b ∧ b.scheme ≠ u!"file" ∧ b.hasOpaquePath = false ∧ url = { scheme := sc }
  | .relativeSlash => ∃ b, base = some b ∧ b.scheme ≠ u!"file" ∧ b.hasOpaquePath = false ∧ url = { scheme := b.scheme }
  | .specialAuthoritySlashes | .specialAuthorityIgnoreSlashes | .authority =>
    ∃ sc, url = { scheme := sc } ∧ SchemeOK sc ∧ sc ≠ u!"file"
  | .host => ∃ sc us pw, url = { scheme := sc, username := us, password := pw } ∧ SchemeOK sc ∧ sc ≠ u!"file" ∧
      (∀ c ∈ us, safeUserinfo c = true) ∧ (∀ c ∈ pw, safeUserinfo c = true) ∧
      (us ≠ [] ∨ pw ≠ [] → ∃ c cs, rest = c :: cs ∧ notEnd (isSpecialScheme sc) c = true)
  | .port => AuthWF k P url ∧ url.path = .list [] ∧ url.query = none ∧ url.fragment = none ∧
      url.scheme ≠ u!"file" ∧ url.host ≠ none ∧ url.host ≠ some (.str [])
  | .file => ∃ sc, url = { scheme := sc }
  | .fileSlash | .fileHost => url = { scheme := u!"file", host := some (.str []) }
  | .pathStart => AuthWF k P url ∧ url.path = .list [] ∧ url.query = none ∧ url.fragment = none ∧ url.host ≠ none
  | .path => AuthWF k P url ∧ (∃ p, url.path = .list p ∧ SegsOK k url.scheme p) ∧ QueryWF url ∧ url.fragment = none
  | .opaquePath => (rest = [] ∧ WF k P url) ∨
      ∃ sc, url = { scheme := sc, path := .opaque [] } ∧ SchemeOK sc ∧ isSpecialScheme sc = false ∧
        rest.head? ≠ some c!"/"
  | .query => AuthWF k P url ∧ PathWF k url ∧ url.query = some [] ∧ url.fragment = none
  | .fragment => WF k P url ∧ (rest ≠ [] → ∃ f, url.fragment = some f)
  | .eof => WF k P url
  | .hostname | .scheme => False

/-- the outcome of a step is good -/
def SOut.Good (k : Bool) (env : Env) (P : Bool → Host → Prop) (base : Option Rec) (n : Nat) : SOut → Prop
  | .to st r u => PInv k P base r u st
  | .fail e _ => ParseErr env n e

theorem good_ite {k : Bool} {env : Env} {P : Bool → Host → Prop} {base : Option Rec} {n : Nat} {c : Prop} [Decidable c] {a b : SOut}
    (ha : c → a.Good k env P base n) (hb : ¬ c → b.Good k env P base n) : (if c then a else b).Good k env P base n := by
  split
  · exact ha ‹_›
  · exact hb ‹_›

end Urlstd
