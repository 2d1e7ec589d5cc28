/-
The serializers of the code and of the standard.
-/
import Verif.Lemmas.Ascii
import Verif.Spec.Serialize
import Verif.Lemmas.IPv6
import Verif.Lemmas.IPv4

namespace Urlstd

theorem ipv4Serializer_eq (n : Nat) : ipv4Serialize n = Spec.ipv4Serializer n := by
  rw [ipv4Serialize_eq]
  unfold Spec.ipv4Serializer
  simp only [Spec.ipv4Rounds, ← natDec_decText]
  rw [show n / 256 / 256 / 256 = n / 2 ^ 24 by omega, show n / 256 / 256 = n / 2 ^ 16 by omega,
    show n / 256 = n / 2 ^ 8 by omega]
  simp

theorem compress_pat (a : List Nat) : Spec.compressIndex (v6Pat a) = Spec.compressIndex a := by
  have hz : ∀ b : List Nat, Spec.zerosAtStart (v6Pat b) = Spec.zerosAtStart b := by
    intro b
    induction b with
    | nil => rfl
    | cons v vs ih =>
      unfold Spec.zerosAtStart v6Pat at ih ⊢
      by_cases hv : v = 0
      · simp [hv, List.takeWhile, ih]
      · simp [hv, List.takeWhile]
  unfold Spec.compressIndex
  have : (List.range (v6Pat a).length).map (fun i => Spec.zerosAtStart ((v6Pat a).drop i)) =
      (List.range a.length).map fun i => Spec.zerosAtStart (a.drop i) := by
    unfold v6Pat
    rw [List.length_map]
    refine List.map_congr_left fun i _ => ?_
    rw [← List.map_drop]
    exact hz _
  rw [this]

theorem compress_all : ∀ b0 b1 b2 b3 b4 b5 b6 b7 : Bool,
    (fun a => v6FindCompress a 0 none none 1 0 = Spec.compressIndex a)
      ([b0, b1, b2, b3, b4, b5, b6, b7].map fun b => if b then 0 else 1) := by
  decide +kernel

theorem compress_eq {a : List Nat} (h : a.length = 8) : v6FindCompress a 0 none none 1 0 = Spec.compressIndex a := by
  rw [← v6FindCompress_pat, ← compress_pat]
  match a, h with
  | [a0, a1, a2, a3, a4, a5, a6, a7], _ =>
    have := compress_all (decide (a0 = 0)) (decide (a1 = 0)) (decide (a2 = 0)) (decide (a3 = 0))
      (decide (a4 = 0)) (decide (a5 = 0)) (decide (a6 = 0)) (decide (a7 = 0))
    simpa [v6Pat] using this

theorem v6Out_eq (c : Option Nat) (a : List Nat) : ∀ (rest : List Nat) (i : Nat) (ig : Bool) (out : Str),
    a.drop i = rest →
    v6Out c rest i ig out = Spec.ipv6Pieces c a ig out ((List.range rest.length).map (i + ·)) := by
  intro rest
  induction rest with
  | nil => intros; rfl
  | cons v vs ih =>
    intro i ig out h
    have hd : a.drop (i + 1) = vs := by rw [← List.tail_drop, h]; rfl
    have hv : a.getD i 0 = v := by
      rw [List.getD_eq_getElem?_getD, ← List.head?_drop, h]; rfl
    have hr : (List.range (v :: vs).length).map (i + ·) = i :: (List.range vs.length).map (i + 1 + ·) := by
      rw [List.length_cons, List.range_succ_eq_map, List.map_cons, List.map_map]
      simp only [Nat.add_zero, List.cons.injEq, true_and]
      exact List.map_congr_left fun j _ => by simp only [Function.comp_apply]; omega
    rw [hr]
    unfold v6Out Spec.ipv6Pieces
    dsimp only
    rw [hv]
    by_cases h1 : ig = true ∧ v = 0
    · rw [if_pos h1, if_pos (by simp [h1]), h1.1]
      exact ih (i + 1) true out hd
    · rw [if_neg h1, if_neg (by simpa using h1)]
      by_cases h2 : c = some i
      · rw [if_pos h2, if_pos (by simp [h2])]
        exact ih (i + 1) true _ hd
      · rw [if_neg h2, if_neg (by simp [h2]), natHex_eq]
        rw [ih (i + 1) false _ hd]
        by_cases h7 : i ≠ 7
        · rw [if_pos h7, if_pos h7, List.append_assoc]
        · rw [if_neg h7, if_neg h7, List.append_nil]

theorem ipv6Serializer_eq {a : List Nat} (h : a.length = 8) : ipv6Serialize a = Spec.ipv6Serializer a := by
  unfold ipv6Serialize Spec.ipv6Serializer
  rw [compress_eq h, v6Out_eq _ a a 0 false [] rfl, h]
  rfl

theorem hostSerializer_eq {h : Host} (h6 : ∀ a, h = .ipv6 a → a.length = 8) : hostSerialize h = Spec.hostSerializer h := by
  cases h with
  | str s => rfl
  | ipv4 n => exact ipv4Serializer_eq n
  | ipv6 a => show _ ++ ipv6Serialize a ++ _ = _; rw [ipv6Serializer_eq (h6 a rfl)]; rfl

theorem pathSerializer_eq (p : Path) : serializePath p = Spec.pathSerializer p := by
  cases p with
  | «opaque» s => rfl
  | list l =>
    induction l with
    | nil => rfl
    | cons s ss ih =>
      have : serializePath (.list (s :: ss)) = 47 :: (s ++ serializePath (.list ss)) := by simp [serializePath]
      rw [this, ih]
      rfl

theorem urlSerializer_eq {u : Rec} (h6 : ∀ a, u.host = some (.ipv6 a) → a.length = 8) (x : Bool) :
    u.serialize x = Spec.urlSerializer u x := by
  unfold Rec.serialize Spec.urlSerializer
  dsimp only
  rw [pathSerializer_eq]
  have hq : ∀ q : Option Str, (match q with | some q => c!"?" :: q | none => []) =
      (match q with | some q => u!"?" ++ q | none => []) := fun q => by cases q <;> rfl
  cases hh : u.host with
  | none =>
    have hd : (if u.needsDot then u!"/." else []) = (match u.path with | .list ([] :: _ :: _) => u!"/." | _ => []) := by
      unfold Rec.needsDot
      rw [hh]
      rcases u.path with s | l
      · rfl
      · rcases l with _ | ⟨a, _ | ⟨b, l⟩⟩
        · rfl
        · rcases a with _ | ⟨c, cs⟩ <;> rfl
        · rcases a with _ | ⟨c, cs⟩ <;> rfl
    rw [hd]
    rcases u.path with s | l
    · cases u.query <;> cases u.fragment <;> cases x <;> simp
    · rcases l with _ | ⟨a, _ | ⟨b, l⟩⟩
      · cases u.query <;> cases u.fragment <;> cases x <;> simp
      · rcases a with _ | ⟨c, cs⟩ <;> cases u.query <;> cases u.fragment <;> cases x <;> simp
      · rcases a with _ | ⟨c, cs⟩ <;> cases u.query <;> cases u.fragment <;> cases x <;> simp
  | some h =>
    have hd : u.needsDot = false := by unfold Rec.needsDot; rw [hh]; rfl
    dsimp only
    rw [hd, hostSerializer_eq (fun a e => h6 a (by rw [hh, e]))]
    unfold Rec.serializePort Rec.serializeCredentials Rec.includesCredentials
    simp only [natDec_decText]
    rcases u.username with _ | ⟨a, as⟩ <;> rcases u.password with _ | ⟨b, bs⟩ <;> cases u.port <;> cases u.query <;>
      cases u.fragment <;> cases x <;> simp

end Urlstd
