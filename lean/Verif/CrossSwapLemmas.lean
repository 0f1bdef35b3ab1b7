import Verif.CrossSwap
import Verif.Spec.Interp
import Verif.SerializeLemmas
/- Parsing the scripts of the example. -/
namespace Verif.CrossSwap
open Verif Verif.Spec.Interp

theorem takeData_rest {n t op rest} (h : takeData n t = some (op, rest)) : rest.length ≤ t.length := by
  unfold takeData at h
  split at h
  · cases h
  · simp only [Option.some.injEq, Prod.mk.injEq] at h
    rw [← h.2]; simp

theorem opAt_rest {o t op rest} (h : opAt o t = some (op, rest)) : rest.length ≤ t.length := by
  unfold opAt at h
  split at h
  · exact takeData_rest h
  split at h
  · split at h
    · cases h
    · have := takeData_rest h; simp at this; omega
  split at h
  · split at h
    · cases h
    · have := takeData_rest h; simp at this; omega
  split at h
  · split at h
    · cases h
    · have := takeData_rest h; simp at this; omega
  split at h <;> simp only [Option.some.injEq, Prod.mk.injEq] at h <;> rw [h.2] <;> exact Nat.le_refl _

theorem parseFuel_enough : ∀ (f g : Nat) (s : Bytes), s.length ≤ f → s.length ≤ g → parseFuel f s = parseFuel g s
  | f, g, [], _, _ => by cases f <;> cases g <;> rfl
  | 0, _, _ :: _, h, _ => by simp at h
  | _, 0, _ :: _, _, h => by simp at h
  | f + 1, g + 1, o :: t, hf, hg => by
    simp only [parseFuel]
    cases h : opAt o t with
    | none => rfl
    | some x =>
      obtain ⟨op, rest⟩ := x
      have hr := opAt_rest h
      simp only [List.length_cons] at hf hg
      simp only [Option.bind_eq_bind, Option.bind_some]
      rw [parseFuel_enough f g rest (by omega) (by omega)]

theorem parse_cons {o t op rest} (h : opAt o t = some (op, rest)) : parse (o :: t) = (parse rest).map (op :: ·) := by
  have hr := opAt_rest h
  unfold parse
  simp only [List.length_cons, parseFuel, h, Option.bind_eq_bind, Option.bind_some]
  rw [parseFuel_enough t.length rest.length rest hr (Nat.le_refl _)]
  cases parseFuel rest.length rest <;> rfl

theorem parse_nil : parse [] = some [] := rfl

theorem takeData_append {n : Nat} {d t : Bytes} (h : d.length = n) : takeData n (d ++ t) = some (.push d, t) := by
  subst h
  unfold takeData
  rw [if_neg (by simp), List.take_left, List.drop_left]

theorem parse_data {d : Bytes} (t : Bytes) (h : d.length < 65536) :
    parse (pushData d ++ t) = (parse t).map (.push d :: ·) := by
  unfold pushData
  split
  · rename_i h1
    rw [List.cons_append]
    apply parse_cons
    unfold opAt
    have : (UInt8.ofNat d.length).toNat = d.length := by
      rw [UInt8.toNat_ofNat']; omega
    rw [this, if_pos (by omega)]
    exact takeData_append rfl
  split
  · rw [List.cons_append]
    apply parse_cons
    unfold opAt
    rw [if_neg (by decide), if_pos (by decide), List.append_assoc]
    have hl : (leBytes 1 d.length).length = 1 := by simp
    rw [if_neg (by simp), List.take_append_of_le_length (by simp), List.drop_append_of_le_length (by simp)]
    rw [List.take_of_length_le (by simp), List.drop_of_length_le (by simp), leVal_leBytes_of_lt (by omega), List.nil_append]
    exact takeData_append rfl
  · rw [List.cons_append]
    apply parse_cons
    unfold opAt
    rw [if_neg (by decide), if_neg (by decide), if_pos (by decide), List.append_assoc]
    rw [if_neg (by simp), List.take_append_of_le_length (by simp), List.drop_append_of_le_length (by simp)]
    rw [List.take_of_length_le (by simp), List.drop_of_length_le (by simp), leVal_leBytes_of_lt (by omega), List.nil_append]
    exact takeData_append rfl

theorem parse_op {o : UInt8} (t : Bytes) (h : 96 < o.toNat) : parse (o :: t) = (parse t).map (.code o :: ·) := by
  apply parse_cons
  unfold opAt
  rw [if_neg (by omega), if_neg (by omega), if_neg (by omega), if_neg (by omega), if_neg (by omega)]

theorem parse_num {n : Nat} (t : Bytes) (h : 1 ≤ n) (h' : n ≤ 16) :
    parse ((Elem.num n).bytes ++ t) = (parse t).map (.push [UInt8.ofNat n] :: ·) := by
  simp only [Elem.bytes]
  rw [if_neg (by omega), List.singleton_append]
  apply parse_cons
  unfold opAt
  have : (UInt8.ofNat (0x50 + n)).toNat = 0x50 + n := by rw [UInt8.toNat_ofNat']; omega
  rw [this, if_neg (by omega), if_neg (by omega), if_neg (by omega), if_neg (by omega), if_pos (by omega)]
  have : UInt8.ofNat (0x50 + n) - 80 = UInt8.ofNat n := by
    apply UInt8.toNat_inj.1
    rw [UInt8.toNat_sub, UInt8.toNat_ofNat', UInt8.toNat_ofNat']
    have : (80 : UInt8).toNat = 80 := rfl
    rw [this]; omega
  rw [this]

theorem script_cons (e : Elem) (l : List Elem) : script (e :: l) = e.bytes ++ script l := rfl
theorem script_nil : script [] = [] := rfl

end Verif.CrossSwap
