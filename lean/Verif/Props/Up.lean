/-
C108: going up.
-/
import Verif.Props.Compose

namespace Urlstd.Props

open Spec (IsStr Denotes FileText Relative tailText TailOK Slash NoSlash HasScheme segmentsOf follow parent DriveFirst dropTabs stripC0 isSpecial isNormDrive)

/-- go up to the parent directory so many times -/
def upTimes (env : Env) : Nat → Rec → Except Err Rec
  | 0, b => .ok b
  | k + 1, b => match (parseUrl env u!"../" (.record b)).res with
    | .ok u => upTimes env k u
    | .error e => .error e

/-- the number of segments that cannot be left: the drive letter of a file URL -/
def fixedSegments (file : Bool) : List Str → Nat
  | [] => 0
  | d :: _ => if file = true ∧ isNormDrive d = true then 1 else 0

/-- the URL of an ancestor directory, with the first `n` segments of the path -/
def ancestor (b : Rec) (p : List Str) (n : Nat) : Rec :=
  { b with path := .list (p.take (max (fixedSegments (b.scheme == u!"file") p) n) ++ [[]]), query := none, fragment := none }

private theorem fixed_cons (file : Bool) (d : Str) (r : List Str) :
    fixedSegments file (d :: r) = if file = true ∧ isNormDrive d = true then 1 else 0 := rfl

private theorem fixed_le (file : Bool) (p : List Str) : fixedSegments file p ≤ p.length ∧ fixedSegments file p ≤ 1 := by
  cases p with
  | nil => exact ⟨Nat.le_refl _, Nat.zero_le _⟩
  | cons d r =>
    rw [fixed_cons]
    split
    · exact ⟨by simp, Nat.le_refl _⟩
    · exact ⟨by simp, by omega⟩

private theorem parent_take (file : Bool) (p : List Str) (m : Nat) (h1 : fixedSegments file p ≤ m) (h2 : m ≤ p.length) :
    parent file (p.take m) = p.take (max (fixedSegments file p) (m - 1)) := by
  unfold parent
  split
  · next h =>
    obtain ⟨hf, d, hd, e, hn⟩ := h
    have hm : m = 1 := by
      have := congrArg List.length e
      simp only [List.length_take, List.length_singleton] at this
      omega
    subst hm
    cases p with
    | nil => simp at h2
    | cons a r =>
      have : a = d := by simpa using e
      subst this
      have : fixedSegments file (a :: r) = 1 := by rw [fixed_cons, if_pos ⟨hf, hn⟩]
      rw [this]
      rfl
  · next h =>
    rw [List.dropLast_eq_take, List.take_take, List.length_take]
    have hk : fixedSegments file p ≤ m - 1 ∨ m = 0 := by
      rcases Nat.lt_or_ge (m - 1) (fixedSegments file p) with hlt | hge
      · right
        have := (fixed_le file p).2
        rcases Nat.eq_zero_or_pos m with h0 | h0
        · exact h0
        · exfalso
          have hm : m = 1 := by omega
          subst hm
          apply h
          cases p with
          | nil => simp at h2
          | cons a r =>
            rw [fixed_cons] at hlt
            split at hlt
            · next hh => exact ⟨hh.1, a, by simp, rfl, hh.2⟩
            · omega
      · exact .inl hge
    congr 1
    omega

private theorem fixed_take (file : Bool) (p : List Str) (m : Nat) (h : fixedSegments file p ≤ m) :
    fixedSegments file (p.take m ++ [[]]) = fixedSegments file p := by
  cases p with
  | nil =>
    simp only [List.take_nil, List.nil_append]
    rw [fixed_cons, if_neg]
    · rfl
    rintro ⟨_, h⟩
    cases h
  | cons d r =>
    cases m with
    | zero =>
      have e : fixedSegments file (d :: r) = 0 := by omega
      rw [e]
      simp only [List.take_zero, List.nil_append]
      rw [fixed_cons, if_neg]
      rintro ⟨_, h⟩
      cases h
    | succ m => rfl

private theorem enter_up (file : Bool) (p : List Str) (n : Nat) : ∀ (m : Nat), fixedSegments file p ≤ m → m ≤ p.length →
    enter file (p.take m) (List.replicate n u!"..") = p.take (max (fixedSegments file p) (m - n)) := by
  induction n with
  | zero =>
    intro m h1 h2
    show p.take m = _
    congr 1
    omega
  | succ n ih =>
    intro m h1 h2
    show enter file (parent file (p.take m)) (List.replicate n u!"..") = _
    rw [parent_take file p m h1 h2, ih _ (by omega) (by have := (fixed_le file p).1; omega)]
    congr 1
    omega

/-- "../" so many times -/
def dots (n : Nat) : Str := (List.replicate n u!"../").flatten

private theorem segments_dots (sp : Bool) (n : Nat) : segmentsOf sp (dots n) = List.replicate n u!".." ++ [[]] := by
  induction n with
  | zero => rfl
  | succ n ih =>
    have : dots (n + 1) = u!".." ++ c!"/" :: dots n := rfl
    rw [this, segmentsOf_dir (.inl rfl), ih]
    cases sp <;> rfl

private theorem dots_mem {n : Nat} : ∀ c ∈ dots n, c = c!"." ∨ c = c!"/" := by
  intro c hc
  unfold dots at hc
  obtain ⟨l, hl, hc⟩ := List.mem_flatten.1 hc
  rw [List.eq_of_mem_replicate hl] at hc
  simpa [or_comm] using hc

private theorem dots_head (sp : Bool) (n : Nat) : NoSlash sp (dots (n + 1)) := by
  intro c hc
  have : c = c!"." := by
    have e : (dots (n + 1)).head? = some c!"." := rfl
    rw [e] at hc
    exact (Option.some.inj hc).symm
  subst this
  rintro (h | ⟨_, h⟩) <;> exact absurd h (by decide)

private theorem dots_drive (n : Nat) : ¬ DriveFirst (dots (n + 1)) := by
  unfold DriveFirst
  rw [segments_dots]
  rintro ⟨d, hd, h⟩
  have : d = u!".." := by simpa [List.replicate_succ] using hd.symm
  subst this
  exact absurd h (by decide)

private theorem dots_text (n : Nat) : IsStr (dots n) ∧ dropTabs (stripC0 (dots n)) = tailText (dots n) none none := by
  have hs : IsStr (dots n) := by
    intro c hc
    rcases dots_mem c hc with rfl | rfl <;> decide
  refine ⟨hs, ?_⟩
  rw [prepared_std, prepared_id]
  · unfold tailText; simp
  · intro c hc
    rcases dots_mem c hc with rfl | rfl <;> decide
  · intro h
    rcases dots_mem _ (List.mem_of_head? h) with h | h <;> exact absurd h (by decide)
  · intro h
    rcases dots_mem _ (List.mem_of_getLast? h) with h | h <;> exact absurd h (by decide)

private theorem follow_dots (file sp : Bool) (p : List Str) (n : Nat) :
    follow file (parent file p) (segmentsOf sp (dots (n + 1))) =
      p.take (max (fixedSegments file p) (p.length - 2 - n)) ++ [[]] := by
  have e : parent file p = p.take (max (fixedSegments file p) (p.length - 1)) := by
    have := parent_take file p p.length (fixed_le file p).1 (Nat.le_refl _)
    rwa [List.take_length] at this
  rw [segments_dots, follow_append _ _ _ _ (by simp), e, enter_up file p (n + 1) _ (by omega) (by have := (fixed_le file p).1; omega)]
  have : ∀ out, follow file out [[]] = out ++ [[]] := by
    intro out
    have h1 : Spec.doubleDot [] = false := by decide
    have h2 : Spec.singleDot [] = false := by decide
    have h3 : Spec.isDrive [] = false := rfl
    unfold follow Spec.segment
    rw [h1, h2, h3]
    simp
    decide
  rw [this]
  congr 2
  have := (fixed_le file p).2
  omega

/-- C108. The reference "../../ ... /" leads to the directory so many levels up: one segment less for each "..", but never above the
root and, in a file URL, never away from the drive. Query and fragment are gone, the rest is as before. -/
theorem C108_up (env : Env) (b : Rec) (p : List Str) (hp : b.path = .list p)
    (hb : b.scheme = u!"file" → b.port = none ∧ b.username = [] ∧ b.password = []) (n : Nat) :
    (parseUrl env (dots (n + 1)) (.record b)).res = .ok (ancestor b p (p.length - 2 - n)) := by
  obtain ⟨hs, e⟩ := dots_text (n + 1)
  have hg : Spec.GoodBase (some b) := by intro b' hb _; cases hb; exact ⟨p, hp⟩
  refine (C83_denotes env _ (some b) hs hg _).2 ?_
  rw [e]
  have hne : dots (n + 1) ≠ [] := by intro h; cases h
  have ok : TailOK (dots (n + 1)) none := ⟨fun c hc => by rcases dots_mem c hc with rfl | rfl <;> decide, by simp⟩
  have hn : ¬ HasScheme (tailText (dots (n + 1)) none none) := by
    apply tail_scheme
    apply noScheme_of
    intro hc
    rcases dots_mem _ hc with h | h <;> exact absurd h (by decide)
  by_cases hf : b.scheme = u!"file"
  · have := FileText.path (env := env) (base := some b) b p (dots (n + 1)) none none rfl hf hp hne (dots_head _ n) ok
    rw [if_neg (dots_drive n), follow_dots] at this
    refine .fileBase _ b p _ hn rfl hp hf ?_
    obtain ⟨h1, h2, h3⟩ := hb hf
    have e : ancestor b p (p.length - 2 - n) =
        Spec.fileURL b.host (p.take (max (fixedSegments true p) (p.length - 2 - n)) ++ [[]]) none none := by
      unfold ancestor Spec.fileURL
      rw [hf, h1, h2, h3]
      rfl
    rw [e]
    exact this
  · have := Relative.path (env := env) (b := b) p (dots (n + 1)) none none hp hne (dots_head _ n) ok
    rw [follow_dots] at this
    refine .reference _ b p _ hn rfl hp hf ?_
    have hff : (b.scheme == u!"file") = false := by simpa using hf
    unfold ancestor
    rw [hff]
    exact this

private theorem ancestor_up (b : Rec) (p : List Str) (n : Nat) :
    let p' := p.take (max (fixedSegments (b.scheme == u!"file") p) (p.length - 2)) ++ [[]]
    ancestor (ancestor b p (p.length - 2)) p' (p'.length - 2 - n) = ancestor b p (p.length - 2 - (n + 1)) := by
  intro p'
  have h1 := fixed_le (b.scheme == u!"file") p
  have hfx : fixedSegments (b.scheme == u!"file") p' = fixedSegments (b.scheme == u!"file") p := fixed_take _ _ _ (by omega)
  have hlen : p'.length = max (fixedSegments (b.scheme == u!"file") p) (p.length - 2) + 1 := by
    show (p.take _ ++ [[]]).length = _
    rw [List.length_append, List.length_take, List.length_singleton]
    omega
  have hsc : (ancestor b p (p.length - 2)).scheme = b.scheme := rfl
  have key : p'.take (max (fixedSegments (b.scheme == u!"file") p') (p'.length - 2 - n)) =
      p.take (max (fixedSegments (b.scheme == u!"file") p) (p.length - 2 - (n + 1))) := by
    rw [hfx, hlen]
    show (p.take _ ++ [[]]).take _ = _
    rw [List.take_append_of_le_length (by rw [List.length_take]; omega), List.take_take]
    congr 1
    omega
  unfold ancestor at hsc ⊢
  dsimp only
  rw [key]

/-- C108. Going up one level so many times is the same as going up so many levels at once. -/
theorem C108_times (env : Env) (b : Rec) (p : List Str) (hp : b.path = .list p)
    (hb : b.scheme = u!"file" → b.port = none ∧ b.username = [] ∧ b.password = []) (n : Nat) :
    upTimes env (n + 1) b = (parseUrl env (dots (n + 1)) (.record b)).res := by
  rw [C108_up env b p hp hb n]
  induction n generalizing b p with
  | zero =>
    have h0 : (parseUrl env u!"../" (.record b)).res = .ok (ancestor b p (p.length - 2 - 0)) := C108_up env b p hp hb 0
    unfold upTimes
    rw [h0]
    rfl
  | succ n ih =>
    have h0 : (parseUrl env u!"../" (.record b)).res = .ok (ancestor b p (p.length - 2 - 0)) := C108_up env b p hp hb 0
    unfold upTimes
    rw [h0]
    dsimp only
    rw [ih (ancestor b p (p.length - 2 - 0)) _ rfl hb]
    exact congrArg _ (ancestor_up b p n)

/-- C108. After enough steps one is at the root, or at the drive, and stays there. -/
theorem C108_root (env : Env) (b : Rec) (p : List Str) (hp : b.path = .list p)
    (hb : b.scheme = u!"file" → b.port = none ∧ b.username = [] ∧ b.password = []) (n : Nat) (hn : p.length ≤ n + 2) :
    upTimes env (n + 1) b = .ok (ancestor b p 0) := by
  rw [C108_times env b p hp hb, C108_up env b p hp hb, Nat.sub_sub, Nat.sub_eq_zero_of_le (by omega)]

/-- "/a/b/c/d" -/
private def exDeep : Rec := { scheme := u!"http", host := some (.str u!"h"), path := .list [u!"a", u!"b", u!"c", u!"d"], query := some u!"q" }

example : upTimes exEnv 2 exDeep = .ok { exDeep with path := .list [u!"a", []], query := none } := by
  rw [C108_times exEnv exDeep _ rfl (fun h => absurd h (by decide)) 1, C108_up exEnv exDeep _ rfl (fun h => absurd h (by decide)) 1]
  decide

example : upTimes exEnv 10 exDeep = .ok { exDeep with path := .list [[]], query := none } :=
  C108_root exEnv exDeep _ rfl (fun h => absurd h (by decide)) 9 (by decide)

private def exDrive : Rec := { scheme := u!"file", host := some (.str []), path := .list [u!"C:", u!"x", u!"y"] }

/-- the drive stays -/
example : (parseUrl exEnv u!"../../../" (.record exDrive)).res =
    .ok { scheme := u!"file", host := some (.str []), path := .list [u!"C:", []] } :=
  C108_up exEnv exDrive _ rfl (fun _ => ⟨rfl, rfl, rfl⟩) 2

end Urlstd.Props
