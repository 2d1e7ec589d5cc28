/-
The standard's definitions (Spec/Machine.lean) against the model's helpers.
-/
import Verif.Spec.Machine
import Verif.Lemmas.Reference
import Verif.Lemmas.Surrogate3

set_option linter.unusedSimpArgs false
set_option linter.unusedVariables false

namespace Urlstd

open Spec (IsStr IsScalarStr encodeCP encodeAfter encoder Letter)

/-! ### Scalar strings -/

theorem Spec.IsScalarStr.str {s : Str} (h : IsScalarStr s) : IsStr s := fun c hc => (h c hc).1
theorem Spec.IsScalarStr.mono {s t : Str} (h : IsScalarStr s) (ht : ∀ c ∈ t, c ∈ s) : IsScalarStr t := fun c hc => h c (ht c hc)
theorem Spec.IsScalarStr.append {s t : Str} (h : IsScalarStr s) (ht : IsScalarStr t) : IsScalarStr (s ++ t) := by
  intro c hc
  rcases List.mem_append.1 hc with hc | hc
  · exact h c hc
  · exact ht c hc
theorem Spec.IsScalarStr.nil : IsScalarStr [] := fun c hc => by cases hc

theorem utf8_scalar {s : Str} (h : IsScalarStr s) : Spec.utf8 s = s.flatMap Spec.utf8CP := by
  unfold Spec.utf8; rw [combine_of_scalar _ h]

/-! ### Percent-encoding -/

/-- a safe set and a percent-encode set that agree -/
def Agree (safe set : Nat → Bool) : Prop := ∀ b < 256, quoteSafe safe b = !set b

theorem agree_c0 : Agree safeC0 Spec.c0Set := by unfold Agree; decide +kernel
theorem agree_fragment : Agree safeFragment Spec.fragmentSet := by unfold Agree; decide +kernel
theorem agree_query : Agree safeQuery Spec.querySet := by unfold Agree; decide +kernel
theorem agree_specialQuery : Agree safeSpecialQuery Spec.specialQuerySet := by unfold Agree; decide +kernel
theorem agree_path : Agree safePath Spec.pathSet := by unfold Agree; decide +kernel
theorem agree_userinfo : Agree safeUserinfo Spec.userinfoSet := by unfold Agree; decide +kernel

theorem encode_each {safe set : Nat → Bool} (ha : Agree safe set) {s : Str} (hs : IsScalarStr s) :
    utf8PercentEncode s safe = s.flatMap (encodeCP set) := by
  rw [utf8PercentEncode_spec hs.str ha, utf8_scalar hs]
  unfold Spec.percentEncode encodeCP Spec.percentEncode
  rw [List.flatMap_assoc]

theorem encode_one {safe set : Nat → Bool} (ha : Agree safe set) {c : Nat} (hc : IsScalarStr [c]) :
    utf8PercentEncode [c] safe = encodeCP set c := by
  rw [encode_each ha hc]; simp

theorem quoter_agree {safe set : Nat → Bool} (ha : Agree safe set) {bs : Bytes} (hb : ∀ b ∈ bs, b < 256) :
    quoteFromBytes safe bs = Spec.percentEncode (fun b => !set b) false bs := by
  have : quoteFromBytes safe bs = bs.flatMap (quoter safe) := by
    unfold quoteFromBytes
    split
    · rename_i h
      rw [List.all_eq_true] at h
      clear hb
      induction bs with
      | nil => rfl
      | cons b bs ih =>
        rw [List.flatMap_cons, ← ih fun x hx => h x (by simp [hx])]
        unfold quoter
        rw [if_pos (h b (by simp))]
        rfl
    · rfl
  rw [this]
  unfold Spec.percentEncode
  apply flatMap_congr_mem
  intro b hm
  unfold quoter
  rw [ha b (hb b hm), pctByte_eq (hb b hm)]
  simp

theorem natDec_quoted (n : Nat) : ∀ b ∈ natDec n, isDigit b = true := natDec_digits n

theorem xmlCharRef_quoted (c : Nat) : quoteFromBytes (fun x => !false && x == c!"/") (xmlCharRef c) =
    u!"%26%23" ++ natDec c ++ u!"%3B" := by
  have h1 : ¬ (xmlCharRef c).all (quoteSafe fun x => !false && x == c!"/") = true := by
    intro h
    rw [List.all_eq_true] at h
    exact absurd (h 38 (by simp [xmlCharRef])) (by decide)
  unfold quoteFromBytes
  rw [if_neg h1]
  unfold xmlCharRef
  simp only [List.flatMap_append]
  congr 1
  congr 1
  have := natDec_quoted c
  generalize natDec c = d at this
  induction d with
  | nil => rfl
  | cons b d ih =>
    rw [List.flatMap_cons, ih fun x hx => this x (by simp [hx])]
    unfold quoter quoteSafe alwaysSafe isAlnum
    rw [if_pos (by simp [this b (by simp)])]
    rfl

theorem strict_each {f : Nat → Option Bytes} {safe set : Nat → Bool} (ha : Agree safe set) (he : EncOK (.other f))
    {s : Str} {bs : Bytes} (h : (Encoding.other f).encodeStrict s = some bs) :
    Spec.percentEncode (fun b => !set b) false bs = encodeAfter f set s := by
  induction s generalizing bs with
  | nil => cases h; rfl
  | cons c cs ih =>
    unfold Encoding.encodeStrict at h
    change (match f c, (Encoding.other f).encodeStrict cs with
      | some b, some bs => some (b ++ bs) | _, _ => none) = some bs at h
    split at h
    · rename_i b bs' h1 h2
      cases h
      unfold encodeAfter
      rw [List.flatMap_cons, h1]
      have := ih h2
      unfold encodeAfter at this
      rw [← this]
      simp [Spec.percentEncode]
    · cases h

/-- the query encoding -/
theorem encode_after {e : Encoding} (he : EncOK e) (hr : NoRef e) {safe set : Nat → Bool} (ha : Agree safe set) {s : Str}
    (hs : IsScalarStr s) : stringPercentEncode s safe e = encodeAfter (encoder e) set s := by
  cases e with
  | utf8 =>
    show utf8PercentEncode s safe = _
    rw [encode_each ha hs]
    rfl
  | other f =>
    unfold stringPercentEncode
    rw [toScalar_of_scalar _ hs]
    dsimp only
    cases h : (Encoding.other f).encodeStrict s with
    | some bs =>
      dsimp only
      have hb : ∀ b ∈ bs, b < 256 := encodeStrict_bytes he h
      show quoteFromBytes safe bs = _
      rw [quoter_agree ha hb, strict_each ha he h]
      rfl
    | none =>
      dsimp only
      unfold encodeAfter
      apply flatMap_congr_mem
      intro c hc
      unfold encodeFallback1
      have hfc : (Encoding.other f).enc c = f c := rfl
      have hec : encoder (.other f) c = f c := rfl
      dsimp only
      rw [hfc, hec]
      cases hf : f c with
      | none =>
        dsimp only [Option.getD_none]
        rw [if_neg (by simp [xmlCharRef]), if_pos (by simp [xmlCharRef])]
        rw [← natDec_decText]
        exact xmlCharRef_quoted c
      | some bs =>
        dsimp only [Option.getD_some]
        cases bs with
        | nil => rfl
        | cons b bs =>
          rw [if_neg (by simp)]
          rw [if_neg (by
            have := hr c _ hf
            simpa using this)]
          exact quoter_agree ha (he c _ hf)

/-! ### Character classes, schemes, drive letters, dot segments -/

theorem toLower_eq_lower (s : Str) : Spec.toLower s = lower s := by
  unfold Spec.toLower lower
  congr 1
  funext c
  unfold lowerC
  by_cases h : 65 ≤ c ∧ c ≤ 90
  · rw [if_pos h, if_pos (by simp [h.1, h.2])]; omega
  · rw [if_neg h, if_neg (by simpa using h)]

theorem isSpecial_eq (s : Str) : Spec.isSpecial s = isSpecialScheme s := by
  rw [Bool.eq_iff_iff, special_iff]
  unfold Spec.isSpecial Spec.Special
  rw [List.any_eq_true]
  constructor
  · rintro ⟨⟨a, p⟩, h, h'⟩
    cases eq_of_beq h'
    exact ⟨p, h⟩
  · rintro ⟨p, h⟩
    exact ⟨(s, p), h, by simp⟩

theorem isDefault_eq (s : Str) (p : Nat) : Spec.isDefault s p = isDefaultPort s p := by
  rw [Bool.eq_iff_iff]
  unfold Spec.isDefault
  rw [List.contains_iff_mem]
  refine ⟨default_of_mem, ?_⟩
  unfold isDefaultPort specialPort
  intro h
  rw [beq_iff_eq] at h
  simp only [Spec.specialSchemes, List.mem_cons, List.not_mem_nil, or_false, Prod.mk.injEq, Option.some.injEq, reduceCtorEq,
    and_false, false_or]
  (repeat' split at h) <;> simp_all

theorem letter_eq (a : Nat) : decide (Letter a) = isAlpha a := by
  rw [Bool.eq_iff_iff, decide_eq_true_eq, isAlpha_iff]

theorem isDrive_eq (s : Str) : Spec.isDrive s = isWindowsDriveLetter s := by
  unfold Spec.isDrive isWindowsDriveLetter
  split
  · rw [letter_eq]
  · rename_i h
    split
    · exact absurd rfl (h _ _)
    · rfl

theorem isNormDrive_eq (s : Str) : Spec.isNormDrive s = isNormalizedWindowsDriveLetter s := by
  unfold Spec.isNormDrive isNormalizedWindowsDriveLetter isWindowsDriveLetter
  split
  · rename_i a b
    rw [letter_eq]
    rw [Bool.eq_iff_iff]
    simp only [Bool.and_eq_true, Bool.or_eq_true, beq_iff_eq, List.drop_succ_cons, List.drop_zero, List.cons.injEq,
      and_true]
    constructor
    · rintro ⟨h1, h2⟩; exact ⟨⟨h1, .inl h2⟩, h2⟩
    · rintro ⟨⟨h1, _⟩, h2⟩; exact ⟨h1, h2⟩
  · rename_i h
    split
    · exact absurd rfl (h _ _)
    · rfl

theorem startsWithDrive_eq (s : Str) : Spec.startsWithDrive s = startsWithWindowsDriveLetter s := by
  unfold Spec.startsWithDrive startsWithWindowsDriveLetter
  cases s with
  | nil => rfl
  | cons a s =>
    cases s with
    | nil => rfl
    | cons b s =>
      cases s with
      | nil => simp [isDrive_eq]
      | cons c s => simp [isDrive_eq]

theorem lowerCP_fix {a v : Nat} (h : (if 65 ≤ a ∧ a ≤ 90 then a - 65 + 97 else a) = v) (hv : v < 97) : a = v := by
  split at h <;> omega

theorem lowerCP_e {a : Nat} : (if 65 ≤ a ∧ a ≤ 90 then a - 65 + 97 else a) = 101 ↔ a = 101 ∨ a = 69 := by
  constructor
  · intro h; split at h <;> omega
  · rintro (rfl | rfl) <;> rfl

theorem lowerCP_fix_iff {a v : Nat} (hv : v < 65) : (if 65 ≤ a ∧ a ≤ 90 then a - 65 + 97 else a) = v ↔ a = v := by
  constructor
  · intro h; exact lowerCP_fix h (by omega)
  · rintro rfl; rw [if_neg (by omega)]

theorem singleDot_eq (s : Str) : Spec.singleDot s = isSingleDot s := by
  rw [Bool.eq_iff_iff]
  unfold Spec.singleDot isSingleDot Spec.toLower
  rw [List.contains_iff_mem, List.contains_iff_mem]
  simp only [List.mem_cons, List.not_mem_nil, or_false]
  rcases s with _ | ⟨a, _ | ⟨b, _ | ⟨c, _ | ⟨d, s⟩⟩⟩⟩ <;>
    simp [lowerCP_fix_iff, lowerCP_e, -ite_eq_right_iff, -ite_eq_left_iff]
  constructor
  · rintro ⟨h1, h2, h3 | h3⟩ <;> simp [h1, h2, h3]
  · rintro (⟨h1, h2, h3⟩ | ⟨h1, h2, h3⟩) <;> simp [h1, h2, h3]

theorem doubleDot_eq (s : Str) : Spec.doubleDot s = isDoubleDot s := by
  rw [Bool.eq_iff_iff]
  unfold Spec.doubleDot isDoubleDot Spec.toLower
  rw [List.contains_iff_mem, List.contains_iff_mem]
  simp only [List.mem_cons, List.not_mem_nil, or_false]
  rcases s with _ | ⟨a, _ | ⟨b, _ | ⟨c, _ | ⟨d, _ | ⟨e, _ | ⟨f, _ | ⟨g, s⟩⟩⟩⟩⟩⟩⟩ <;>
    simp [lowerCP_fix_iff, lowerCP_e, -ite_eq_right_iff, -ite_eq_left_iff]
  · constructor
    · rintro (⟨h1, h2, h3, h4 | h4⟩ | ⟨h1, h2, h3 | h3, h4⟩) <;> simp [h1, h2, h3, h4]
    · rintro (⟨h1, h2, h3, h4⟩ | ⟨h1, h2, h3, h4⟩ | ⟨h1, h2, h3, h4⟩ | ⟨h1, h2, h3, h4⟩) <;> simp [h1, h2, h3, h4]
  · constructor
    · rintro ⟨h1, h2, h3 | h3, h4, h5, h6 | h6⟩ <;> simp [h1, h2, h3, h4, h5, h6]
    · rintro (⟨h1, h2, h3, h4, h5, h6⟩ | ⟨h1, h2, h3, h4, h5, h6⟩ | ⟨h1, h2, h3, h4, h5, h6⟩ | ⟨h1, h2, h3, h4, h5, h6⟩) <;>
        simp [h1, h2, h3, h4, h5, h6]

theorem isOpaque_eq (u : Rec) : Spec.isOpaque u = u.hasOpaquePath := rfl

theorem shorten_eq {u : Rec} {p : List Str} (h : u.path = .list p) :
    Spec.shorten u = { u with path := .list (shortenPath u.scheme p) } := by
  unfold Spec.shorten
  rw [h]
  dsimp only
  rcases p with _ | ⟨a, _ | ⟨b, p⟩⟩
  · rw [if_neg (by simp)]
    rfl
  · have hs : shortenPath u.scheme [a] = if (u.scheme == u!"file" && isNormalizedWindowsDriveLetter a) = true then [a] else [] := rfl
    rw [hs]
    by_cases hc : u.scheme = u!"file" ∧ isNormalizedWindowsDriveLetter a = true
    · rw [if_pos (c := _ ∧ _) ⟨hc.1, rfl, by rw [isNormDrive_eq]; exact hc.2⟩, if_pos (by simp [hc.1, hc.2])]
      rw [← h]
    · rw [if_neg (c := _ ∧ _) (fun h => hc ⟨h.1, by rw [← isNormDrive_eq]; exact h.2.2⟩), if_neg (by simpa using hc)]
      rfl
  · rw [if_neg (by simp)]
    rfl

/-- the end of one path segment -/
theorem segment_eq {u : Rec} {p : List Str} (h : u.path = .list p) {raw : Str} (hr : IsScalarStr raw) (slash : Bool) :
    (if Spec.doubleDot (raw.flatMap (encodeCP Spec.pathSet)) = true then
        (if slash = true then Spec.shorten u else Spec.pushSegment (Spec.shorten u) [])
      else if Spec.singleDot (raw.flatMap (encodeCP Spec.pathSet)) = true then (if slash = true then u else Spec.pushSegment u [])
      else Spec.pushSegment u
        (if u.scheme = u!"file" ∧ u.path = .list [] ∧ Spec.isDrive (raw.flatMap (encodeCP Spec.pathSet)) = true then
          (raw.flatMap (encodeCP Spec.pathSet)).take 1 ++ u!":" else raw.flatMap (encodeCP Spec.pathSet))) =
      { u with path := .list (addSegment u.scheme p raw slash) } := by
  rw [← encode_each agree_path hr, doubleDot_eq, singleDot_eq, isDrive_eq]
  unfold addSegment
  dsimp only
  generalize utf8PercentEncode raw safePath = b
  by_cases h1 : isDoubleDot b = true
  · rw [if_pos h1, if_pos h1, shorten_eq h]
    cases slash
    · simp [Spec.pushSegment]
    · simp
  · rw [if_neg h1, if_neg h1]
    by_cases h2 : isSingleDot b = true
    · rw [if_pos h2, if_pos h2]
      cases slash
      · simp [Spec.pushSegment, h]
      · simp [← h]
    · rw [if_neg h2, if_neg h2]
      by_cases h3 : u.scheme = u!"file" ∧ p = [] ∧ isWindowsDriveLetter b = true
      · rw [if_pos (by rw [h]; exact ⟨h3.1, by rw [h3.2.1], h3.2.2⟩), if_pos (by simp [h3.1, h3.2.1, h3.2.2])]
        unfold Spec.pushSegment
        rw [h]
        dsimp only
        have := h3.2.2
        unfold isWindowsDriveLetter at this
        split at this
        · rfl
        · cases this
      · rw [if_neg (by
          rw [h]
          rintro ⟨a, hb, hc⟩
          exact h3 ⟨a, by injection hb, hc⟩), if_neg (by
          simp only [Bool.and_eq_true, beq_iff_eq, List.isEmpty_iff]
          rintro ⟨⟨a, hb⟩, hc⟩
          exact h3 ⟨a, hb, hc⟩)]
        unfold Spec.pushSegment
        rw [h]

/-! ### Credentials -/

theorem credentials_pw (s : Str) (u : Rec) : Spec.credentials s true u =
    (true, { u with password := u.password ++ s.flatMap (encodeCP Spec.userinfoSet) }) := by
  induction s generalizing u with
  | nil => simp [Spec.credentials]
  | cons c s ih =>
    unfold Spec.credentials
    rw [if_neg (by simp), if_pos rfl, ih]
    simp

theorem credentials_user (s : Str) (u : Rec) : Spec.credentials s false u =
    match splitAtFirst c!":" s with
    | none => (false, { u with username := u.username ++ s.flatMap (encodeCP Spec.userinfoSet) })
    | some (a, b) => (true, { u with
        username := u.username ++ a.flatMap (encodeCP Spec.userinfoSet)
        password := u.password ++ b.flatMap (encodeCP Spec.userinfoSet) }) := by
  induction s generalizing u with
  | nil => simp [Spec.credentials, splitAtFirst]
  | cons c s ih =>
    unfold Spec.credentials splitAtFirst
    by_cases hc : c = 58
    · rw [if_pos ⟨hc, rfl⟩, if_pos hc, credentials_pw]
      simp
    · rw [if_neg (by simp [hc]), if_neg hc, if_neg (by simp), ih]
      cases h : splitAtFirst 58 s with
      | none => simp
      | some p => simp

theorem splitAtFirst_sub {c : Nat} {s a b : Str} (h : splitAtFirst c s = some (a, b)) :
    (∀ x ∈ a, x ∈ s) ∧ ∀ x ∈ b, x ∈ s := by
  induction s generalizing a b with
  | nil => cases h
  | cons x s ih =>
    unfold splitAtFirst at h
    split at h
    · cases h; exact ⟨by simp, by simp +contextual⟩
    · rw [Option.map_eq_some_iff] at h
      obtain ⟨p, h1, h2⟩ := h
      cases h2
      obtain ⟨h3, h4⟩ := ih h1
      refine ⟨?_, fun y hy => List.mem_cons_of_mem _ (h4 y hy)⟩
      intro y hy
      rcases List.mem_cons.1 hy with rfl | hy
      · simp
      · exact List.mem_cons_of_mem _ (h3 y hy)

theorem add_or_same (a b : Str) : (if b.isEmpty = true then a else a ++ b) = a ++ b := by
  cases b <;> simp

theorem ite_user (s t : Str) (f : Str → Str) (h : f [] = []) : (if s.isEmpty = true then t else t ++ f s) = t ++ f s := by
  cases s <;> simp [h]

theorem authorityAt_spec {buffer : Str} (hb : IsScalarStr buffer) (atSeen pw : Bool) (u : Rec) :
    Spec.credentials (if atSeen = true then u!"%40" ++ buffer else buffer) pw u =
      ((authorityAt buffer atSeen pw u).2, (authorityAt buffer atSeen pw u).1) := by
  unfold authorityAt
  dsimp only
  have hb' : IsScalarStr (if atSeen = true then u!"%40" ++ buffer else buffer) := by
    split
    · refine Spec.IsScalarStr.append ?_ hb
      intro c hc
      simp only [List.mem_cons, List.not_mem_nil, or_false] at hc
      unfold Spec.Surrogate
      omega
    · exact hb
  generalize (if atSeen = true then u!"%40" ++ buffer else buffer) = t at hb'
  rw [ite_user _ _ (fun x => utf8PercentEncode x safeUserinfo) rfl, ite_user _ _ (fun x => utf8PercentEncode x safeUserinfo) rfl]
  cases pw with
  | true =>
    rw [credentials_pw]
    simp only [if_true]
    rw [← encode_each agree_userinfo hb']
    simp [utf8PercentEncode_nil]
  | false =>
    rw [credentials_user]
    simp only [Bool.false_eq_true, if_false]
    cases h : splitAtFirst 58 t with
    | none =>
      dsimp only
      rw [← encode_each agree_userinfo hb']
      simp [utf8PercentEncode_nil]
    | some p =>
      obtain ⟨a, b⟩ := p
      obtain ⟨h1, h2⟩ := splitAtFirst_sub h
      dsimp only
      rw [encode_each agree_userinfo (hb'.mono h1), encode_each agree_userinfo (hb'.mono h2)]

/-! ### Ports -/

theorem decimal_eq {s : Str} (h : ∀ c ∈ s, isDigit c = true) : Spec.decimal s = numVal 10 s := by
  unfold Spec.decimal numVal
  generalize 0 = n
  induction s generalizing n with
  | nil => rfl
  | cons c s ih =>
    have hc := h c (by simp)
    rw [List.foldl_cons, List.foldl_cons, ih (fun x hx => h x (by simp [hx]))]
    congr 1
    unfold digitValue
    rw [if_pos hc]
    omega

theorem digit_eq (c : Nat) : decide (Spec.Digit c) = isDigit c := by
  rw [Bool.eq_iff_iff, decide_eq_true_eq, isDigit_iff]
  rfl

theorem port_value (env : Env) {s : Str} (h : ∀ c ∈ s, isDigit c = true) (hne : s ≠ [])
    (hl : env.maxStrDigits = 0 ∨ s.length ≤ env.maxStrDigits) : pyInt env 10 s = some (Int.ofNat (Spec.decimal s)) := by
  rw [decimal_eq h]
  refine pyInt_numeral env (by decide) ?_ hne fun _ => hl
  intro c hc
  have := h c hc
  unfold digitValue
  rw [if_pos this]
  rw [isDigit_iff] at this
  omega

end Urlstd
