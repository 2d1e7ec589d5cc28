/-
The scheme of a parsed URL is the one that the input begins with, or else the scheme of the base.
-/
import Verif.Lemmas.ErrorFree4

set_option linter.unusedSimpArgs false
set_option linter.unusedVariables false

namespace Urlstd

open Spec (HasScheme SchemeText)

section
variable {env : Env} {e : Encoding} {base : Option Rec}

/-- the parse is going to end with the scheme `sch` -/
def KeepsScheme (base : Option Rec) (sch : Str) : PState → Rec → Prop
  | .schemeStart, _ => False
  | .scheme, _ => False
  | .noScheme, _ => ∀ b, base = some b → b.scheme = sch
  | .relative, _ => ∀ b, base = some b → b.scheme = sch
  | .file, _ => sch = u!"file"
  | .specialRelativeOrAuthority, url => url.scheme = sch ∧ ∀ b, base = some b → b.scheme = sch
  | _, url => url.scheme = sch

/-- a step keeps that -/
def SOut.keeps (base : Option Rec) (sch : Str) : SOut → Prop
  | .to st _ url => KeepsScheme base sch st url
  | .fail _ _ => True

theorem keeps_ite {c : Prop} [Decidable c] {sch : Str} {a b : SOut} (ha : a.keeps base sch) (hb : b.keeps base sch) :
    (if c then a else b).keeps base sch := by split <;> assumption

theorem afterPath_keeps {sch : Str} {st : PState} {r : Str} {url : Rec} (hst : st = .eof ∨ st = .opaquePath) (h : url.scheme = sch) :
    (afterPath st r url).keeps base sch := by
  unfold afterPath
  cases r with
  | nil => rcases hst with rfl | rfl <;> exact h
  | cons c cs => exact keeps_ite h h

theorem addCreds_scheme (url : Rec) (ui : Str) : (addCreds url ui).scheme = url.scheme := by
  unfold addCreds
  split <;> rfl

theorem sHostEnd_keeps {sch : Str} {b r : Str} {url : Rec} (h : url.scheme = sch) : (sHostEnd env false b r url).keeps base sch := by
  unfold sHostEnd
  refine keeps_ite trivial (keeps_ite h ?_)
  cases (hostParse env b (!url.isSpecial)).res with
  | error e => trivial
  | ok x => exact h

theorem shortenRec_keeps {url u : Rec} (h : shortenRec url = some u) : u.scheme = url.scheme := by
  unfold shortenRec at h
  split at h <;> cases h
  rfl

theorem sstep_keeps {sch : Str} {st : PState} {rest : Str} {url : Rec} (h : KeepsScheme base sch st url) :
    (sstep env e base none st rest url).keeps base sch := by
  cases st with
  | schemeStart => exact absurd h (fun h => h)
  | scheme => trivial
  | eof => trivial
  | noScheme =>
    show (sNoScheme base rest url).keeps base sch
    unfold sNoScheme
    cases base with
    | none => trivial
    | some b =>
      have hb : b.scheme = sch := h b rfl
      refine keeps_ite trivial (keeps_ite hb ?_)
      by_cases hf : b.scheme = u!"file"
      · rw [if_neg (by simpa using hf)]
        exact hb.symm.trans hf
      · rw [if_pos hf]
        exact h
  | specialRelativeOrAuthority => exact keeps_ite h.1 h.2
  | pathOrAuthority => exact keeps_ite h h
  | relative =>
    show (sRelative base rest url).keeps base sch
    unfold sRelative
    cases base with
    | none => trivial
    | some b =>
      have hb : b.scheme = sch := h b rfl
      refine keeps_ite trivial ?_
      cases rest with
      | nil => exact hb
      | cons c cs =>
        refine keeps_ite hb (keeps_ite hb (keeps_ite hb ?_))
        dsimp only
        split
        · rename_i u hu
          exact (shortenRec_keeps hu).trans hb
        · trivial
  | relativeSlash =>
    show (sRelativeSlash base rest url).keeps base sch
    unfold sRelativeSlash
    refine keeps_ite h (keeps_ite h ?_)
    cases base with
    | none => trivial
    | some b => exact h
  | specialAuthoritySlashes => exact keeps_ite h h
  | specialAuthorityIgnoreSlashes => exact h
  | authority =>
    show (sAuthority rest url).keeps base sch
    unfold sAuthority
    dsimp only
    split
    · exact h
    · exact keeps_ite trivial ((addCreds_scheme _ _).trans h)
  | host =>
    show (sHost env none rest url).keeps base sch
    unfold sHost
    refine keeps_ite h ?_
    dsimp only
    unfold sHostGo
    split
    · exact sHostEnd_keeps h
    · refine keeps_ite (keeps_ite trivial (keeps_ite h ?_)) (sHostEnd_keeps h)
      split
      · trivial
      · exact h
  | hostname =>
    show (sHost env none rest url).keeps base sch
    unfold sHost
    refine keeps_ite h ?_
    dsimp only
    unfold sHostGo
    split
    · exact sHostEnd_keeps h
    · refine keeps_ite (keeps_ite trivial (keeps_ite h ?_)) (sHostEnd_keeps h)
      split
      · trivial
      · exact h
  | port =>
    have key : ∀ b r, (sPortEnd env false b r url).keeps base sch := by
      intro b r
      unfold sPortEnd
      refine keeps_ite h ?_
      split
      · trivial
      · exact keeps_ite trivial h
    show (sPort env none rest url).keeps base sch
    unfold sPort sPortGo
    split
    · exact key _ _
    · exact keeps_ite (key _ _) trivial
  | file =>
    have hf : u!"file" = sch := Eq.symm h
    clear h
    have key : ∀ r, (sFilePath base r { url with scheme := u!"file", host := some (.str []) }).keeps base sch := by
      intro r
      unfold sFilePath
      cases base with
      | none => exact hf
      | some b =>
        refine keeps_ite ?_ hf
        cases r with
        | nil => exact hf
        | cons c cs =>
          refine keeps_ite hf (keeps_ite hf (keeps_ite ?_ hf))
          dsimp only
          split
          · rename_i u hu
            exact (shortenRec_keeps hu).trans hf
          · trivial
    show (sFile base rest url).keeps base sch
    unfold sFile
    dsimp only
    split
    · exact keeps_ite hf (key _)
    · exact key _
  | fileSlash =>
    have key : ∀ r, (sFileSlashPath base r url).keeps base sch := by
      intro r
      unfold sFileSlashPath
      cases base with
      | none => exact h
      | some b =>
        refine keeps_ite ?_ h
        dsimp only
        split
        · refine keeps_ite ?_ h
          split
          · exact h
          · trivial
        · exact h
    show (sFileSlash base rest url).keeps base sch
    unfold sFileSlash
    split
    · exact keeps_ite h (key _)
    · exact key _
  | fileHost =>
    show (sFileHostEnd env false _ _ url).keeps base sch
    unfold sFileHostEnd
    refine keeps_ite h (keeps_ite h ?_)
    split
    · trivial
    · exact h
  | pathStart =>
    show (sPathStart none rest url).keeps base sch
    unfold sPathStart
    split
    · refine keeps_ite h (keeps_ite ?_ h)
      split
      · exact h
      · trivial
    · exact keeps_ite h (keeps_ite h (keeps_ite h (keeps_ite h h)))
  | path =>
    show (sPath none rest url).keeps base sch
    unfold sPath
    split
    · trivial
    · exact afterPath_keeps (.inr rfl) h
  | opaquePath => exact afterPath_keeps (.inl rfl) h
  | query =>
    show (sQuery e none rest url).keeps base sch
    unfold sQuery
    refine keeps_ite h ?_
    split
    · trivial
    · show Rec.scheme (if _ then _ else _) = sch
      split <;> exact h
  | fragment =>
    show (sFragment rest url).keeps base sch
    unfold sFragment
    refine keeps_ite h ?_
    split
    · trivial
    · exact h

theorem eval_keeps {sch : Str} (n : Nat) : ∀ (st : PState) (rest : Str) (url : Rec), st.rank ≤ n → KeepsScheme base sch st url →
    ∀ u, eval env e base none st rest url = (.ok (), u) → u.scheme = sch := by
  induction n with
  | zero =>
    intro st rest url hn hk u hu
    have : st = .eof := rank_zero (Nat.le_zero.1 hn)
    subst this
    rw [eval_eof] at hu
    cases hu
    exact hk
  | succ n ih =>
    intro st rest url hn hk u hu
    by_cases hst : st = .eof
    · subst hst
      rw [eval_eof] at hu
      cases hu
      exact hk
    · rw [eval_step _ _ _ _ hst] at hu
      have hb := sstep_below env e base none st rest url
      have hk' := sstep_keeps (env := env) (e := e) (rest := rest) hk
      cases hs : sstep env e base none st rest url with
      | fail err u' => rw [hs] at hu; cases hu
      | to st' rest' url' =>
        rw [hs] at hu hb hk'
        exact ih st' rest' url' (by have : st'.rank < st.rank := hb; omega) hk' u hu

/-- with a scheme -/
theorem eval_scheme {sc rest : Str} (hsc : SchemeText sc) {u : Rec}
    (hu : eval env e base none .schemeStart (sc ++ c!":" :: rest) {} = (.ok (), u)) : u.scheme = Spec.toLower sc := by
  rw [eval_step _ _ _ _ (by decide)] at hu
  have hb := sstep_below env e base none .schemeStart (sc ++ c!":" :: rest) {}
  have hk : (sstep env e base none .schemeStart (sc ++ c!":" :: rest) {}).keeps base (Spec.toLower sc) := by
    show (sScheme base none _ {}).keeps base (Spec.toLower sc)
    unfold sScheme
    have := takeScheme_any hsc rest
    change takeScheme (sc ++ c!":" :: rest) = _ at this
    rw [this]
    dsimp only
    rw [if_neg (by simp)]
    by_cases hf : Spec.toLower sc = u!"file"
    · rw [if_pos hf]
      exact hf
    · rw [if_neg hf]
      refine keeps_ite ?_ (keeps_ite rfl rfl)
      cases base with
      | none => exact rfl
      | some b =>
        dsimp only
        by_cases hbs : (b.scheme == Spec.toLower sc) = true
        · rw [if_pos hbs]
          refine ⟨rfl, fun b' hb' => ?_⟩
          cases hb'
          exact eq_of_beq hbs
        · rw [if_neg hbs]
          exact rfl
  cases hs : sstep env e base none .schemeStart (sc ++ c!":" :: rest) {} with
  | fail err u' => rw [hs] at hu; cases hu
  | to st' rest' url' =>
    rw [hs] at hu hb hk
    exact eval_keeps 20 st' rest' url' (by have : st'.rank < 20 := hb; omega) hk u hu

/-- without a scheme -/
theorem eval_base_scheme {t : Str} (hn : ¬ HasScheme t) {u : Rec}
    (hu : eval env e base none .schemeStart t {} = (.ok (), u)) : ∃ b, base = some b ∧ u.scheme = b.scheme := by
  have hs : sstep env e base none .schemeStart t {} = .to .noScheme t {} := by
    show sScheme base none t {} = _
    unfold sScheme
    rw [takeScheme_none hn]
    rfl
  rw [eval_step _ _ _ _ (by decide), hs] at hu
  cases base with
  | none =>
    exfalso
    change eval env e none none .noScheme t {} = _ at hu
    rw [eval_step _ _ _ _ (by decide)] at hu
    cases hu
  | some b =>
    have hk : KeepsScheme (some b) b.scheme .noScheme {} := fun b' hb' => by cases hb'; rfl
    exact ⟨b, rfl, eval_keeps 20 .noScheme t {} (by decide) hk u hu⟩

end

end Urlstd
