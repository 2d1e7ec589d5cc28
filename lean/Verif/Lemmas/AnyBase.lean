/-
Two encodings that agree on the characters of an input parse it alike.
-/
import Verif.Lemmas.Encoding
import Verif.Lemmas.Inv
import Verif.Lemmas.Surrogate
import Verif.Lemmas.Machine5
import Verif.Lemmas.SchemeStart

namespace Urlstd

open Spec (Surrogate SchemeText)

/-- the string consists of scalar values on which two encodings agree -/
def AgreeOn (e e' : Encoding) (s : Str) : Prop :=
  ∀ c ∈ s, c ≤ 0x10FFFF ∧ ¬ Surrogate c ∧ e.enc c = e'.enc c

theorem AgreeOn.sub {e e' : Encoding} {s t : Str} (h : AgreeOn e e' s) (ht : ∀ c ∈ t, c ∈ s) : AgreeOn e e' t :=
  fun c hc => h c (ht c hc)

theorem AgreeOn.scalar {e e' : Encoding} {s : Str} (h : AgreeOn e e' s) : toScalar s = s := by
  induction s with
  | nil => rfl
  | cons c cs ih =>
    rw [toScalar_scalar (h c (by simp)).1 (h c (by simp)).2.1, ih (h.sub fun x hx => by simp [hx])]

theorem AgreeOn.strict {e e' : Encoding} {s : Str} (h : AgreeOn e e' s) : e.encodeStrict s = e'.encodeStrict s := by
  induction s with
  | nil => rfl
  | cons c cs ih =>
    unfold Encoding.encodeStrict
    rw [ih (h.sub fun x hx => by simp [hx]), (h c (by simp)).2.2]

theorem AgreeOn.fallback {e e' : Encoding} {s : Str} (h : AgreeOn e e' s) (safe : Nat → Bool) (sp : Bool) :
    s.flatMap (encodeFallback1 e safe sp) = s.flatMap (encodeFallback1 e' safe sp) := by
  induction s with
  | nil => rfl
  | cons c cs ih =>
    rw [List.flatMap_cons, List.flatMap_cons, ih (h.sub fun x hx => by simp [hx])]
    unfold encodeFallback1
    rw [(h c (by simp)).2.2]

theorem AgreeOn.percent {e e' : Encoding} {s : Str} (h : AgreeOn e e' s) (safe : Nat → Bool) (sp : Bool) :
    stringPercentEncode s safe e sp = stringPercentEncode s safe e' sp := by
  unfold stringPercentEncode
  rw [h.scalar]
  dsimp only
  rw [h.strict, h.fallback]

theorem AgreeOn.query {e e' : Encoding} {s : Str} (h : AgreeOn e e' s) (u : Rec) :
    encodeQuery e u s = encodeQuery e' u s := by
  unfold encodeQuery
  cases (!u.isSpecial || u.scheme == u!"ws" || u.scheme == u!"wss") with
  | true => rfl
  | false => exact h.percent _ _

theorem sstep_agree {e e' : Encoding} {r : Str} (h : AgreeOn e e' r) (env : Env) (base : Option Rec)
    (ov : Option PState) (st : PState) (u : Rec) : sstep env e base ov st r u = sstep env e' base ov st r u := by
  cases st
  case query =>
    show sQuery e ov r u = sQuery e' ov r u
    have : AgreeOn e e' (queryText ov.isSome r) := by
      refine h.sub fun c hc => ?_
      unfold queryText at hc
      split at hc
      · exact hc
      · exact (List.takeWhile_sublist _).subset hc
    unfold sQuery
    simp only [this.query]
  all_goals rfl

theorem eval_agree {e e' : Encoding} (env : Env) (base : Option Rec) (ov : Option PState) (n : Nat) :
    ∀ (st : PState) (r : Str) (u : Rec), st.rank ≤ n → AgreeOn e e' r →
      eval env e base ov st r u = eval env e' base ov st r u := by
  induction n with
  | zero =>
    intro st r u hn _
    rw [rank_zero (by omega : st.rank = 0), eval_eof, eval_eof]
  | succ n ih =>
    intro st r u hn h
    by_cases he : st = .eof
    · rw [he, eval_eof, eval_eof]
    · rw [eval_step _ _ _ _ he, eval_step _ _ _ _ he, sstep_agree h]
      have hb := sstep_below env e' base ov st r u
      have hs := sstep_suf env e' base ov st r u
      cases hx : sstep env e' base ov st r u with
      | fail err v => rfl
      | to st' r' v =>
        rw [hx] at hb hs
        refine ih st' r' v ?_ (h.sub fun c hc => List.IsSuffix.subset hs hc)
        have : st'.rank < st.rank := hb
        omega

theorem basicParse_agree {e e' : Encoding} (env : Env) (base : Option Rec) {s : Str} (h : AgreeOn e e' s) :
    (basicParse env s base e).toExcept = (basicParse env s base e').toExcept := by
  rw [basicParse_toExcept, basicParse_toExcept, eval_agree env base none _ _ _ _ (Nat.le_refl _)]
  exact h.sub fun c hc => prepared_mem c hc

theorem fileHost_free {env : Env} {e : Encoding} (base base' : Option Rec) (r : Str) (u : Rec) :
    eval env e base none .fileHost r u = eval env e base' none .fileHost r u := by
  rw [eval_step _ _ _ _ (by decide), eval_step _ _ _ _ (by decide)]
  show (sFileHost env none r u).andThen env e base none = (sFileHost env none r u).andThen env e base' none
  unfold sFileHost sFileHostEnd
  split
  · exact eval_free' env e base base' rfl _ _
  · split
    · exact eval_free' env e base base' rfl _ _
    · split
      · rfl
      · exact eval_free' env e base base' rfl _ _

/-- behind a scheme and two slashes the base is not used -/
theorem parse_slashes_free {env : Env} {e : Encoding} {sc : Str} (h : SchemeText sc) (base base' : Option Rec) (r : Str) :
    (basicParse env (sc ++ 58 :: 47 :: 47 :: r) base e).toExcept =
      (basicParse env (sc ++ 58 :: 47 :: 47 :: r) base' e).toExcept := by
  rw [parse_scheme h, parse_scheme h]
  have hp : prepEnd (47 :: 47 :: r) = 47 :: 47 :: prepEnd r := prepEnd_append (a := [47, 47]) (by decide)
  rw [hp]
  congr 1
  dsimp only
  split
  · show eval env e base none .file _ _ = eval env e base' none .file _ _
    rw [eval_step _ _ _ _ (by decide), eval_step _ _ _ _ (by decide)]
    show eval env e base none .fileSlash _ _ = eval env e base' none .fileSlash _ _
    rw [eval_step _ _ _ _ (by decide), eval_step _ _ _ _ (by decide)]
    exact fileHost_free base base' _ _
  · split
    · have key : ∀ (b : Option Rec) (c : Bool), (if c = true then SOut.to .specialRelativeOrAuthority (47 :: 47 :: prepEnd r) { scheme := Spec.toLower sc }
            else SOut.to .specialAuthoritySlashes (47 :: 47 :: prepEnd r) { scheme := Spec.toLower sc }).andThen env e b none =
          eval env e b none .specialAuthorityIgnoreSlashes (prepEnd r) { scheme := Spec.toLower sc } := by
        intro b c
        cases c with
        | true =>
          show eval env e b none .specialRelativeOrAuthority _ _ = _
          rw [eval_step _ _ _ _ (by decide)]
          show (sSpecialRelativeOrAuthority _ _).andThen env e b none = _
          unfold sSpecialRelativeOrAuthority
          simp only [List.take_succ_cons, List.take_zero, if_true, List.drop_succ_cons, List.drop_zero]
          rfl
        | false =>
          show eval env e b none .specialAuthoritySlashes _ _ = _
          rw [eval_step _ _ _ _ (by decide)]
          show (sSpecialAuthoritySlashes _ _).andThen env e b none = _
          unfold sSpecialAuthoritySlashes
          simp only [List.take_succ_cons, List.take_zero, if_true, List.drop_succ_cons, List.drop_zero]
          rfl
      rw [key, key]
      exact eval_free' env e base base' rfl _ _
    · simp only [List.head?_cons, if_true]
      exact eval_free' env e base base' rfl _ _

end Urlstd
