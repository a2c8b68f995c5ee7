import Verif.Lemmas.LoadStore
import Verif.Lemmas.Alsw
import Verif.Lemmas.Blocks
/-
Operations available on some instruction sets only, numeric lane lemmas and masks.
-/
namespace Simd
namespace Vs
open IsaId Intrin

section
variable {s : Isa}

theorem u16x8_mul_hi_eq (hs : s.is SSE2 = true) (a b) : u16x8_mul_hi s a b = some (mulhi_u16 a b) := by simp [u16x8_mul_hi, hs]
theorem u16x16_mul_hi_eq (hs : s.is SSE2 = true) (a b) : u16x16_mul_hi s a b = some (mulhi_u16 a b) := by
  simp [u16x16_mul_hi, vop2_eq (u16x8_mul_hi_eq hs), mulhi_u16, join_map16]
theorem i16x8_maddubs_eq (hs : s.is SSSE3 = true) (a b) : i16x8_maddubs s a b = some (maddubs a b) := by simp [i16x8_maddubs, hs]
theorem i16x16_maddubs_eq (hs : s.is SSSE3 = true) (a b) : i16x16_maddubs s a b = some (maddubs a b) := by
  simp [i16x16_maddubs, vop2_eq (i16x8_maddubs_eq hs), join_maddubs]
theorem i16x8_madd_eq (hs : s.is SSE2 = true) (a b) : i16x8_madd s a b = some (madd16 a b) := by simp [i16x8_madd, hs]
theorem i16x16_madd_eq (hs : s.is SSE2 = true) (a b) : i16x16_madd s a b = some (madd16 a b) := by
  simp [i16x16_madd, vop2_eq (i16x8_madd_eq hs), join_madd16]

/-- Besides SSE2 every instruction set is SSSE3 (and SSE2) or NEON or WASM128. -/
theorem isa_cases (s : Isa) (hs : s ≠ .sse2) :
    (s.is SSSE3 = true ∧ s.is SSE2 = true) ∨ (s.is SSSE3 = false ∧ s.is SSE2 = false ∧ (s.is NEON || s.is WASM128) = true) := by
  cases s <;> simp [Isa.is] at hs ⊢

end

theorem of16_lane0 {n} (f j) : ((Vec.of16 f : Vec n).lane (2 * j)).toNat = (f j).toNat % 256 := by
  rw [of16_lane, byteOf_toNat, show 2 * j / 2 = j by omega, show 2 * j % 2 = 0 by omega]; simp
theorem of16_lane1 {n} (f j) : ((Vec.of16 f : Vec n).lane (2 * j + 1)).toNat = (f j).toNat / 256 := by
  have := (f j).isLt
  rw [of16_lane, byteOf_toNat, show (2 * j + 1) / 2 = j by omega, show (2 * j + 1) % 2 = 1 by omega]; simp; omega

theorem of32_lane0 {n} (f j) : ((Vec.of32 f : Vec n).lane (4 * j)).toNat = (f j).toNat % 256 := by
  rw [of32_lane, byteOf_toNat, show 4 * j / 4 = j by omega, show 4 * j % 4 = 0 by omega]; simp
theorem of32_lane1 {n} (f j) : ((Vec.of32 f : Vec n).lane (4 * j + 1)).toNat = (f j).toNat / 256 % 256 := by
  rw [of32_lane, byteOf_toNat, show (4 * j + 1) / 4 = j by omega, show (4 * j + 1) % 4 = 1 by omega]; rfl
theorem of32_lane2 {n} (f j) : ((Vec.of32 f : Vec n).lane (4 * j + 2)).toNat = (f j).toNat / 65536 % 256 := by
  rw [of32_lane, byteOf_toNat, show (4 * j + 2) / 4 = j by omega, show (4 * j + 2) % 4 = 2 by omega]; rfl
theorem of32_lane3 {n} (f j) : ((Vec.of32 f : Vec n).lane (4 * j + 3)).toNat = (f j).toNat / 16777216 := by
  have := (f j).isLt
  rw [of32_lane, byteOf_toNat, show (4 * j + 3) / 4 = j by omega, show (4 * j + 3) % 4 = 3 by omega]; simp; omega

theorem set32_lane0 {n} (x j) : (set1_32 x : Vec n).lane (4 * j) = byteOf x 0 := by
  rw [set1_32, of32_lane, show 4 * j % 4 = 0 by omega]
theorem set32_lane1 {n} (x j) : (set1_32 x : Vec n).lane (4 * j + 1) = byteOf x 1 := by
  rw [set1_32, of32_lane, show (4 * j + 1) % 4 = 1 by omega]
theorem set32_lane2 {n} (x j) : (set1_32 x : Vec n).lane (4 * j + 2) = byteOf x 2 := by
  rw [set1_32, of32_lane, show (4 * j + 2) % 4 = 2 by omega]
theorem set32_lane3 {n} (x j) : (set1_32 x : Vec n).lane (4 * j + 3) = byteOf x 3 := by
  rw [set1_32, of32_lane, show (4 * j + 3) % 4 = 3 by omega]

/-- The 16-bit lanes of a vector in the 32-bit group `j`. -/
theorem get16_lo {n} (x : Vec n) (j) : (x.get16 (2 * j)).toNat = (x.lane (4 * j)).toNat + 256 * (x.lane (4 * j + 1)).toNat := by
  rw [get16_toNat, show 2 * (2 * j) = 4 * j by omega]
theorem get16_hi {n} (x : Vec n) (j) : (x.get16 (2 * j + 1)).toNat = (x.lane (4 * j + 2)).toNat + 256 * (x.lane (4 * j + 3)).toNat := by
  rw [get16_toNat, show 2 * (2 * j + 1) = 4 * j + 2 by omega]
theorem of16_q0 {n} (f j) : ((Vec.of16 f : Vec n).lane (4 * j)).toNat = (f (2 * j)).toNat % 256 := by
  rw [show 4 * j = 2 * (2 * j) by omega, of16_lane0]
theorem of16_q1 {n} (f j) : ((Vec.of16 f : Vec n).lane (4 * j + 1)).toNat = (f (2 * j)).toNat / 256 := by
  rw [show 4 * j + 1 = 2 * (2 * j) + 1 by omega, of16_lane1]
theorem of16_q2 {n} (f j) : ((Vec.of16 f : Vec n).lane (4 * j + 2)).toNat = (f (2 * j + 1)).toNat % 256 := by
  rw [show 4 * j + 2 = 2 * (2 * j + 1) by omega, of16_lane0]
theorem of16_q3 {n} (f j) : ((Vec.of16 f : Vec n).lane (4 * j + 3)).toNat = (f (2 * j + 1)).toNat / 256 := by
  rw [show 4 * j + 3 = 2 * (2 * j + 1) + 1 by omega, of16_lane1]

theorem and_lane {n} (a b : Vec n) (i) : (Intrin.and a b).lane i = a.lane i &&& b.lane i := by simp [Intrin.and]
theorem or_lane {n} (a b : Vec n) (i) : (Intrin.or a b).lane i = a.lane i ||| b.lane i := by simp [Intrin.or]

theorem mask_fc (x : Byte) : (x &&& 0xfc#8).toNat = x.toNat / 4 * 4 := by revert x; decide +kernel
theorem mask_c0 (x : Byte) : (x &&& 0xc0#8).toNat = x.toNat / 64 * 64 := by revert x; decide +kernel
theorem mask_f0 (x : Byte) : (x &&& 0xf0#8).toNat = x.toNat / 16 * 16 := by revert x; decide +kernel
theorem mask_0f (x : Byte) : (x &&& 0x0f#8).toNat = x.toNat % 16 := by revert x; decide +kernel
theorem mask_03 (x : Byte) : (x &&& 0x03#8).toNat = x.toNat % 4 := by revert x; decide +kernel
theorem mask_3f (x : Byte) : (x &&& 0x3f#8).toNat = x.toNat % 64 := by revert x; decide +kernel
theorem mask_1f (x : Byte) : (x &&& 0x1f#8).toNat = x.toNat % 32 := by revert x; decide +kernel
theorem mask_00 (x : Byte) : (x &&& 0x00#8).toNat = 0 := by revert x; decide +kernel
theorem mask_ff (x : Byte) : (x &&& 0xff#8).toNat = x.toNat := by revert x; decide +kernel

/-- OR of a multiple of `2 ^ k` and a number below `2 ^ k` is their sum. -/
theorem or_add (x y : Byte) {c k : Nat} (hx : x.toNat = c * 2 ^ k) (hy : y.toNat < 2 ^ k) : (x ||| y).toNat = x.toNat + y.toNat := by
  rw [BitVec.toNat_or, hx, ← Nat.shiftLeft_eq, Nat.shiftLeft_add_eq_or_of_lt hy]
theorem or_zero_toNat (x y : Byte) (hy : y.toNat = 0) : (x ||| y).toNat = x.toNat := by
  rw [show y = 0#8 from BitVec.eq_of_toNat_eq (by simpa using hy), BitVec.or_zero]
theorem zero_or_toNat (x y : Byte) (hx : x.toNat = 0) : (x ||| y).toNat = y.toNat := by
  rw [show x = 0#8 from BitVec.eq_of_toNat_eq (by simpa using hx), BitVec.zero_or]

theorem any_bad {n} (val : Byte → Byte) (xs : List Byte) (hl : xs.length = n) :
    (anyLane n fun i => val ((Vec.ofList xs : Vec n).lane i) == 255#8) = true ↔ ∃ c ∈ xs, val c = 255#8 := by
  rw [anyLane_iff]
  constructor
  · rintro ⟨i, hi, h⟩
    rw [Vec.ofList_lane, List.getD_eq_getElem?_getD, List.getElem?_eq_getElem (by omega)] at h
    exact ⟨_, List.getElem_mem (show i < xs.length by omega), by simpa using h⟩
  · rintro ⟨c, hc, h⟩
    obtain ⟨i, hi, rfl⟩ := List.getElem_of_mem hc
    refine ⟨i, by omega, ?_⟩
    rw [Vec.ofList_lane, List.getD_eq_getElem?_getD, List.getElem?_eq_getElem hi]
    simpa using h

theorem all_good {n} (val : Byte → Byte) (xs : List Byte) (hl : xs.length = n) :
    (allLane n fun i => val ((Vec.ofList xs : Vec n).lane i) != 255#8) = false ↔ ∃ c ∈ xs, val c = 255#8 := by
  rw [← any_bad val xs hl, Bool.eq_false_iff, ne_eq, allLane_iff, anyLane_iff]
  simp

end Vs
end Simd
