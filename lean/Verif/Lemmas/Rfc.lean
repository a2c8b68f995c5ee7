import Verif.Spec.Rfc4648
import Verif.Lemmas.Blocks
/-
The bit-string definition of RFC 4648 unfolded to byte groups.
-/
namespace Simd
open Spec

theorem bitString_append (xs ys) : bitString (xs ++ ys) = bitString xs ++ bitString ys := by
  simp [bitString]

theorem bitString_length (xs) : (bitString xs).length = 8 * xs.length := by
  induction xs with
  | nil => rfl
  | cons x t ih =>
    have : bitString (x :: t) = byteBits x ++ bitString t := by simp [bitString]
    rw [this, List.length_append, ih]
    simp [byteBits]; omega

theorem group_append_left {k : Nat} {a b : List Bool} {j n : Nat} (ha : a.length = k * n) (hj : j < n) :
    group k (a ++ b) j = group k a j := by
  unfold group
  congr 1
  apply List.map_congr_left
  intro i hi
  have hi := List.mem_range.1 hi
  have : k * j + i < a.length := by
    rw [ha]
    calc k * j + i < k * j + k := by omega
      _ = k * (j + 1) := by rw [Nat.mul_succ]
      _ ≤ k * n := Nat.mul_le_mul_left _ hj
  simp [List.getD_eq_getElem?_getD, List.getElem?_append_left this]

theorem group_append_right {k : Nat} {a b : List Bool} {j n : Nat} (ha : a.length = k * n) :
    group k (a ++ b) (n + j) = group k b j := by
  unfold group
  congr 1
  apply List.map_congr_left
  intro i _
  have : a.length ≤ k * (n + j) + i := by rw [ha, Nat.mul_add]; omega
  simp only [List.getD_eq_getElem?_getD, List.getElem?_append_right this]
  congr 2
  rw [ha, Nat.mul_add]; omega

theorem baseText_append {k n : Nat} (hk : 0 < k) (ch) (xs ys : List Byte) (h : 8 * xs.length = k * n) :
    baseText k ch (xs ++ ys) = baseText k ch xs ++ baseText k ch ys := by
  have hb : (bitString xs).length = k * n := by rw [bitString_length, h]
  have hx : (8 * xs.length + k - 1) / k = n := by
    rw [h, Nat.add_sub_assoc hk, Nat.mul_add_div hk, Nat.div_eq_of_lt (by omega)]; rfl
  have hxy : (8 * (xs ++ ys).length + k - 1) / k = n + (8 * ys.length + k - 1) / k := by
    rw [List.length_append, Nat.mul_add, h, Nat.add_assoc, Nat.add_sub_assoc (by omega), Nat.mul_add_div hk]
  unfold baseText
  rw [hxy, hx, List.range_add, List.map_append, List.map_map, bitString_append]
  congr 1
  · apply List.map_congr_left
    intro j hj
    rw [group_append_left hb (List.mem_range.1 hj)]
  · apply List.map_congr_left
    intro j _
    simp only [Function.comp]
    rw [group_append_right hb]

/-- A byte is the sum of its bits. -/
theorem byte_bits (b : Byte) : b.toNat = 128 * (b.getLsbD 7).toNat + 64 * (b.getLsbD 6).toNat + 32 * (b.getLsbD 5).toNat
    + 16 * (b.getLsbD 4).toNat + 8 * (b.getLsbD 3).toNat + 4 * (b.getLsbD 2).toNat + 2 * (b.getLsbD 1).toNat
    + (b.getLsbD 0).toNat := by
  revert b; decide +kernel

theorem padTo_append {q : Nat} {xs ys : List Byte} (h : xs.length = q) : padTo q (xs ++ ys) = xs ++ padTo q ys := by
  unfold padTo
  rw [List.length_append, h, Nat.add_mod_left, List.append_assoc]

end Simd
