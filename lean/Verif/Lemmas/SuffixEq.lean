/-
The states of the model do what the forms of `Suffix` say (`step_on`).
-/
import Verif.Lemmas.Suffix
import Verif.Lemmas.Host

namespace Urlstd

/-! ### lists -/

theorem drop_eq_cons {s : Str} {i c : Nat} {cs : Str} (h : s.drop i = c :: cs) : s.drop (i + 1) = cs := by
  rw [← List.drop_drop, h]; rfl

theorem drop_eq_append {s a b : Str} {i : Nat} (h : s.drop i = a ++ b) : s.drop (i + a.length) = b := by
  rw [← List.drop_drop, h, List.drop_left]

theorem takeWhile_all {α : Type} {p : α → Bool} {l : List α} (h : ∀ x ∈ l, p x = true) : l.takeWhile p = l := by
  induction l with
  | nil => rfl
  | cons a l ih => rw [List.takeWhile_cons, if_pos (h a (by simp)), ih (fun x hx => h x (by simp [hx]))]

theorem dropWhile_all {α : Type} {p : α → Bool} {l : List α} (h : ∀ x ∈ l, p x = true) : l.dropWhile p = [] := by
  induction l with
  | nil => rfl
  | cons a l ih => rw [List.dropWhile_cons, if_pos (h a (by simp)), ih (fun x hx => h x (by simp [hx]))]

theorem takeWhile_append_of {α : Type} {p : α → Bool} {l r : List α} (h : ∀ x ∈ l, p x = true) :
    (l ++ r).takeWhile p = l ++ r.takeWhile p := by
  induction l with
  | nil => rfl
  | cons a l ih =>
    rw [List.cons_append, List.takeWhile_cons, if_pos (h a (by simp)), ih (fun x hx => h x (by simp [hx]))]
    rfl

theorem dropWhile_append_of {α : Type} {p : α → Bool} {l r : List α} (h : ∀ x ∈ l, p x = true) :
    (l ++ r).dropWhile p = r.dropWhile p := by
  induction l with
  | nil => rfl
  | cons a l ih =>
    rw [List.cons_append, List.dropWhile_cons, if_pos (h a (by simp)), ih (fun x hx => h x (by simp [hx]))]

/-! ### authority -/

theorem splitAtLast_none {c : Nat} {s : Str} : splitAtLast c s = none ↔ c ∉ s := by
  induction s with
  | nil => simp [splitAtLast]
  | cons x xs ih =>
    unfold splitAtLast
    cases h : splitAtLast c xs with
    | some ab =>
      have : c ∈ xs := by
        apply Decidable.byContradiction; intro hn; rw [ih.2 hn] at h; cases h
      simp [this]
    | none =>
      have := ih.1 h
      by_cases hx : x = c
      · simp [hx]
      · simp [hx, this, Ne.symm hx]

theorem splitAtLast_append {c : Nat} {a b : Str} (hb : c ∉ b) : splitAtLast c (a ++ c :: b) = some (a, b) := by
  induction a with
  | nil =>
    simp only [List.nil_append]
    unfold splitAtLast
    rw [splitAtLast_none.2 hb]; simp
  | cons x xs ih =>
    rw [List.cons_append]
    unfold splitAtLast
    rw [ih]

theorem splitAtLast_some {c : Nat} {s a b : Str} (h : splitAtLast c s = some (a, b)) :
    s = a ++ c :: b ∧ c ∉ b := by
  induction s generalizing a with
  | nil => cases h
  | cons x xs ih =>
    unfold splitAtLast at h
    cases hx : splitAtLast c xs with
    | some ab =>
      rw [hx] at h
      simp only [Option.some.injEq, Prod.mk.injEq] at h
      obtain ⟨rfl, rfl⟩ := h
      have := ih hx
      exact ⟨by rw [this.1]; rfl, this.2⟩
    | none =>
      rw [hx] at h
      simp only at h
      split at h
      · rename_i hc
        simp only [Option.some.injEq, Prod.mk.injEq] at h
        obtain ⟨rfl, rfl⟩ := h
        exact ⟨by rw [hc]; rfl, splitAtLast_none.1 hx⟩
      · cases h

theorem splitAtFirst_none {c : Nat} {s : Str} : splitAtFirst c s = none ↔ c ∉ s := by
  induction s with
  | nil => simp [splitAtFirst]
  | cons x xs ih =>
    unfold splitAtFirst
    by_cases hx : x = c
    · simp [hx]
    · simp [hx, ih, Ne.symm hx]

theorem splitAtFirst_append {c : Nat} {a b : Str} (ha : c ∉ a) : splitAtFirst c (a ++ c :: b) = some (a, b) := by
  induction a with
  | nil => simp [splitAtFirst]
  | cons x xs ih =>
    simp only [List.mem_cons, not_or] at ha
    rw [List.cons_append]
    unfold splitAtFirst
    rw [if_neg (Ne.symm ha.1), ih ha.2]; rfl

theorem splitAtFirst_some {c : Nat} {s a b : Str} (h : splitAtFirst c s = some (a, b)) :
    s = a ++ c :: b ∧ c ∉ a := by
  induction s generalizing a with
  | nil => cases h
  | cons x xs ih =>
    unfold splitAtFirst at h
    split at h
    · rename_i hx
      simp only [Option.some.injEq, Prod.mk.injEq] at h
      obtain ⟨rfl, rfl⟩ := h
      exact ⟨by rw [hx]; rfl, by simp⟩
    · rename_i hx
      cases hs : splitAtFirst c xs with
      | none => rw [hs] at h; cases h
      | some p =>
        rw [hs] at h
        simp only [Option.map_some, Option.some.injEq, Prod.mk.injEq] at h
        obtain ⟨rfl, rfl⟩ := h
        have := ih hs
        refine ⟨by rw [this.1]; rfl, ?_⟩
        simp only [List.mem_cons, not_or]
        exact ⟨Ne.symm hx, this.2⟩

/-! ### encoding a text with an ASCII character in it -/

theorem utf16Decode_append {c : Nat} (hc : c < 0xD800) (a b : List Nat) :
    utf16Decode (a ++ c :: b) = utf16Decode a ++ c :: utf16Decode b := by
  have h1 : isHigh c = false := by simp [isHigh]; omega
  have h2 : isLow c = false := by simp [isLow]; omega
  have hp := utf16Decode_plain c b h1 h2
  fun_induction utf16Decode a with
  | case1 => exact hp
  | case2 u hu =>
    simp only [List.cons_append, List.nil_append]
    by_cases hh : isHigh u = true
    · rw [utf16Decode, if_pos hh, if_neg (by simp [h2]), hp]
    · have hl : isLow u = true := by simpa [hh] using hu
      rw [utf16Decode, if_neg hh, if_pos hl, hp]
  | case3 u hu =>
    simp only [Bool.or_eq_true, not_or, Bool.not_eq_true] at hu
    simp only [List.cons_append, List.nil_append]
    rw [utf16Decode_plain _ _ hu.1 hu.2, hp]
  | case4 u v rest hu hv ih =>
    simp only [List.cons_append]
    rw [utf16Decode_pair _ _ _ hu hv, ih]
  | case5 u v rest hu hv ih =>
    simp only [List.cons_append] at ih ⊢
    rw [utf16Decode, if_pos hu, if_neg hv, ih]
  | case6 u v rest hu hv ih =>
    simp only [List.cons_append] at ih ⊢
    rw [utf16Decode_low _ _ (by simpa using hu) hv, ih]
  | case7 u v rest hu hv ih =>
    simp only [List.cons_append] at ih ⊢
    rw [utf16Decode_plain _ _ (by simpa using hu) (by simpa using hv), ih]

theorem toScalar_append {c : Nat} (hc : c < 128) (a b : Str) :
    toScalar (a ++ c :: b) = toScalar a ++ c :: toScalar b := by
  unfold toScalar
  have : utf16Units (a ++ c :: b) = utf16Units a ++ c :: utf16Units b := by
    unfold utf16Units
    rw [List.flatMap_append, List.flatMap_cons, if_pos (by omega)]; rfl
  rw [this, utf16Decode_append (by omega)]

theorem utf8Encode_append {c : Nat} (hc : c < 128) (a b : Str) :
    utf8Encode (a ++ c :: b) = utf8Encode a ++ c :: utf8Encode b := by
  unfold utf8Encode utf8EncodeStrict
  rw [toScalar_append hc, List.flatMap_append, List.flatMap_cons, utf8EncodeCP_ascii hc]; rfl

theorem encode_append {c : Nat} (hc : c < 128) (a b : Str) (safe : Nat → Bool) :
    utf8PercentEncode (a ++ c :: b) safe =
      utf8PercentEncode a safe ++ quoter safe c ++ utf8PercentEncode b safe := by
  rw [utf8PercentEncode_false, utf8PercentEncode_false, utf8PercentEncode_false, utf8Encode_append hc,
    List.flatMap_append, List.flatMap_cons, List.append_assoc]

theorem encode_nil (safe : Nat → Bool) : utf8PercentEncode [] safe = [] := by
  rw [utf8PercentEncode_false]; rfl

theorem encode_cons {c : Nat} (hc : c < 128) (b : Str) (safe : Nat → Bool) :
    utf8PercentEncode (c :: b) safe = quoter safe c ++ utf8PercentEncode b safe := by
  have := encode_append hc [] b safe
  simpa [encode_nil] using this

theorem encode_pct40 (b : Str) :
    utf8PercentEncode (u!"%40" ++ b) safeUserinfo = u!"%40" ++ utf8PercentEncode b safeUserinfo := by
  simp only [List.cons_append, List.nil_append]
  rw [encode_cons (by omega), encode_cons (by omega), encode_cons (by omega)]
  have h1 : quoter safeUserinfo 37 = [37] := by decide
  have h2 : quoter safeUserinfo 52 = [52] := by decide
  have h3 : quoter safeUserinfo 48 = [48] := by decide
  rw [h1, h2, h3]; rfl

theorem encode_at (a b : Str) :
    utf8PercentEncode (a ++ c!"@" :: b) safeUserinfo =
      utf8PercentEncode a safeUserinfo ++ utf8PercentEncode (u!"%40" ++ b) safeUserinfo := by
  rw [encode_append (by omega), encode_pct40, List.append_assoc]
  have : quoter safeUserinfo 64 = u!"%40" := by decide
  rw [this]

/-! ### authority -/

theorem if_isEmpty_append (a b : Str) (safe : Nat → Bool) :
    (if a.isEmpty then b else b ++ utf8PercentEncode a safe) = b ++ utf8PercentEncode a safe := by
  split
  · rename_i h; simp at h; subst h; simp [encode_nil]
  · rfl

theorem authorityAt_eq (buffer : Str) (atSeen pwSeen : Bool) (url : Rec) :
    authorityAt buffer atSeen pwSeen url =
      let buffer := if atSeen then u!"%40" ++ buffer else buffer
      if pwSeen then
        ({ url with password := url.password ++ utf8PercentEncode buffer safeUserinfo }, true)
      else (addCreds url buffer, (splitAtFirst c!":" buffer).isSome) := by
  unfold authorityAt
  dsimp only
  generalize (if atSeen = true then u!"%40" ++ buffer else buffer) = b
  cases pwSeen with
  | true => simp only [if_true, if_isEmpty_append, List.isEmpty_nil]
  | false =>
    simp only [Bool.false_eq_true, if_false, addCreds]
    cases splitAtFirst c!":" b with
    | none => simp only [if_isEmpty_append, List.isEmpty_nil, if_true, Option.isSome_none]
    | some p => simp only [if_isEmpty_append, Option.isSome_some]

theorem authorityAt_first (buffer : Str) (url : Rec) :
    authorityAt buffer false false url = (addCreds url buffer, decide (c!":" ∈ buffer)) := by
  rw [authorityAt_eq]
  simp only [Bool.false_eq_true, if_false, Prod.mk.injEq, true_and]
  cases h : splitAtFirst c!":" buffer with
  | none => simp [splitAtFirst_none.1 h]
  | some p =>
    have := (splitAtFirst_some h).1
    simp [this]

theorem authorityAt_next (U buffer : Str) (url : Rec) :
    authorityAt buffer true (decide (c!":" ∈ U)) (addCreds url U) =
      (addCreds url (U ++ c!"@" :: buffer), decide (c!":" ∈ U ++ c!"@" :: buffer)) := by
  rw [authorityAt_eq]
  simp only [if_true]
  cases h : splitAtFirst c!":" U with
  | some p =>
    obtain ⟨a, b⟩ := p
    obtain ⟨rfl, ha⟩ := splitAtFirst_some h
    have hm : c!":" ∈ a ++ c!":" :: b := by simp
    have h2 : splitAtFirst c!":" ((a ++ c!":" :: b) ++ c!"@" :: buffer) = some (a, b ++ c!"@" :: buffer) := by
      rw [List.append_assoc, List.cons_append]; exact splitAtFirst_append ha
    simp only [hm, decide_true, if_true, addCreds, h, h2]
    have hm2 : c!":" ∈ (a ++ c!":" :: b) ++ c!"@" :: buffer := List.mem_append_left _ hm
    rw [decide_eq_true hm2]
    simp only [encode_at, List.append_assoc]
  | none =>
    have hU := splitAtFirst_none.1 h
    simp only [hU, decide_false, Bool.false_eq_true, if_false]
    cases hb : splitAtFirst c!":" buffer with
    | none =>
      have hB := splitAtFirst_none.1 hb
      have e1 : splitAtFirst c!":" (u!"%40" ++ buffer) = none := by
        rw [splitAtFirst_none]; simp [hB]
      have e2 : splitAtFirst c!":" (U ++ c!"@" :: buffer) = none := by
        rw [splitAtFirst_none]; simp [hB, hU]
      simp only [addCreds, h, e1, e2, encode_at, List.append_assoc, Option.isSome_none]
      have : c!":" ∉ U ++ c!"@" :: buffer := splitAtFirst_none.1 e2
      simp only [this, decide_false]
    | some p =>
      obtain ⟨a, b⟩ := p
      obtain ⟨rfl, ha⟩ := splitAtFirst_some hb
      have e1 : splitAtFirst c!":" (u!"%40" ++ (a ++ c!":" :: b)) = some (u!"%40" ++ a, b) := by
        rw [← List.append_assoc]; exact splitAtFirst_append (by simp [ha])
      have e2 : splitAtFirst c!":" (U ++ c!"@" :: (a ++ c!":" :: b)) = some (U ++ c!"@" :: a, b) := by
        rw [← List.cons_append, ← List.append_assoc]; exact splitAtFirst_append (by simp [ha, hU])
      simp only [addCreds, h, e1, e2, encode_at, List.append_assoc, Option.isSome_some]
      have : c!":" ∈ U ++ c!"@" :: (a ++ c!":" :: b) := by simp
      simp only [this, decide_true]

/-- what the authority state does, given the userinfo read so far (`some U` behind an "@") -/
def authorityResult (url0 : Rec) (T tail : Str) : SOut :=
  match splitAtLast c!"@" T with
  | none => .to .host (T ++ tail) url0
  | some (ui, h) =>
    if h.isEmpty then .fail .urlParse (addCreds url0 ui)
    else .to .host (h ++ tail) (addCreds url0 ui)

theorem authorityEnd_on (s : Str) (i : Nat) (buffer tail : Str) (U : Option Str) (url0 : Rec) (log : Log)
    (hb : c!"@" ∉ buffer) (hlen : buffer.length ≤ i) (hs : s.drop (i - buffer.length) = buffer ++ tail) :
    (authorityEnd (i + 1) buffer U.isSome (match U with | none => url0 | some U => addCreds url0 U) log).on s =
      authorityResult url0 (match U with | none => buffer | some U => U ++ c!"@" :: buffer) tail := by
  unfold authorityEnd authorityResult
  cases U with
  | none =>
    rw [splitAtLast_none.2 hb]
    simp only [Option.isSome_none, Bool.false_and, Bool.false_eq_true, if_false, Out.on_to]
    rw [show i + 1 - (buffer.length + 1) = i - buffer.length by omega, hs]
  | some U =>
    rw [splitAtLast_append hb]
    simp only [Option.isSome_some, Bool.true_and]
    split
    · rfl
    · simp only [Out.on_to]
      rw [show i + 1 - (buffer.length + 1) = i - buffer.length by omega, hs]

theorem authorityLoop_on (special : Bool) (s : Str) (url0 : Rec) (rest : Str) :
    ∀ (i : Nat) (buffer : Str) (U : Option Str) (log : Log), c!"@" ∉ buffer → buffer.length ≤ i →
    s.drop (i - buffer.length) = buffer ++ rest →
    (authorityLoop special rest i buffer U.isSome (match U with | none => false | some U => decide (c!":" ∈ U))
      (match U with | none => url0 | some U => addCreds url0 U) log).on s =
    authorityResult url0 ((match U with | none => buffer | some U => U ++ c!"@" :: buffer) ++
      rest.takeWhile (notEnd special)) (rest.dropWhile (notEnd special)) := by
  induction rest with
  | nil =>
    intro i buffer U log hb hlen hs
    unfold authorityLoop
    rw [authorityEnd_on s i buffer [] U url0 log hb hlen hs]
    simp
  | cons c cs ih =>
    intro i buffer U log hb hlen hs
    unfold authorityLoop
    by_cases hat : c = 64
    · subst hat
      have hne : notEnd special 64 = true := by cases special <;> decide
      rw [if_pos rfl, List.takeWhile_cons, if_pos hne, List.dropWhile_cons, if_pos hne]
      have hs' : s.drop (i + 1 - ([] : Str).length) = [] ++ cs := by
        simp only [List.length_nil, Nat.sub_zero, List.nil_append]
        have : s.drop (i - buffer.length + buffer.length) = 64 :: cs := drop_eq_append hs
        rw [Nat.sub_add_cancel hlen] at this
        exact drop_eq_cons this
      cases U with
      | none =>
        have := ih (i + 1) [] (some buffer) (.ev .invalidCredentials :: log) (by simp) (by simp) hs'
        simp only [Option.isSome_none, authorityAt_first] at this ⊢
        simp only [Option.isSome_some] at this
        rw [this]
        simp
      | some U =>
        have := ih (i + 1) [] (some (U ++ 64 :: buffer)) (.ev .invalidCredentials :: log) (by simp) (by simp) hs'
        simp only [Option.isSome_some, authorityAt_next] at this ⊢
        rw [this]
        simp
    · rw [if_neg hat]
      by_cases he : isAuthorityEnd special c = true
      · have hne : notEnd special c = false := by simp [notEnd, he]
        rw [if_pos he, List.takeWhile_cons, if_neg (by simp [hne]), List.dropWhile_cons, if_neg (by simp [hne])]
        rw [authorityEnd_on s i buffer (c :: cs) U url0 log hb hlen hs]
        simp
      · have hne : notEnd special c = true := by simp [notEnd, he]
        rw [if_neg he, List.takeWhile_cons, if_pos hne, List.dropWhile_cons, if_pos hne]
        rw [ih (i + 1) (buffer ++ [c]) U log (by simp [hb, Ne.symm hat]) (by simp; omega)]
        · cases U <;> simp
        · simp only [List.length_append, List.length_cons, List.length_nil]
          rw [show i + 1 - (buffer.length + (0 + 1)) = i - buffer.length by omega, hs]; simp

theorem parseAuthority_on (s : Str) (i : Nat) (url : Rec) :
    (parseAuthority s i url).on s = sAuthority (s.drop i) url := by
  unfold parseAuthority
  have := authorityLoop_on url.isSpecial s url (s.drop i) i [] none [] (by simp) (by simp) (by simp)
  simp only [Option.isSome_none, List.nil_append] at this
  rw [this]
  unfold authorityResult sAuthority
  dsimp only
  rw [List.takeWhile_append_dropWhile]
  cases splitAtLast 64 ((s.drop i).takeWhile (notEnd url.isSpecial)) <;> rfl

end Urlstd
