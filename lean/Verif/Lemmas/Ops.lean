import Verif.Model.Alsw
import Mathlib.Tactic.ByContra
import Mathlib.Tactic.IntervalCases
/-
Normal forms of the vsimd operations: on every instruction set that supports an operation it is the same
lane function.
-/
namespace Simd

theorem Vec.ext {n} {a b : Vec n} (h : ∀ i, a.lane i = b.lane i) : a = b := by
  cases a; cases b; simp only [Vec.mk.injEq]; exact funext h

@[simp] theorem Vec.toList_length {n} (a : Vec n) : a.toList.length = n := by simp [Vec.toList]
theorem Vec.toList_getElem {n} (a : Vec n) (i : Nat) (h : i < a.toList.length) : a.toList[i] = a.lane i := by
  simp [Vec.toList]
@[simp] theorem Vec.ofList_lane {n} (bs : List Byte) (i) : (Vec.ofList bs : Vec n).lane i = bs.getD i 0 := rfl

/-- A vector holds exactly the bytes `xs`. -/
theorem Vec.toList_eq {n} {a : Vec n} {xs : List Byte} (hl : xs.length = n)
    (h : ∀ i, (hi : i < n) → a.lane i = xs[i]) : a.toList = xs := by
  apply List.ext_getElem
  · simp [hl]
  · intro i h1 h2
    rw [Vec.toList_getElem]; exact h i (by simpa using h1)

@[simp] theorem lo_lane (a : V256) (i) : a.lo.lane i = a.lane i := id rfl
@[simp] theorem hi_lane (a : V256) (i) : a.hi.lane i = a.lane (16 + i) := id rfl
theorem join_lane (a b : V128) (i) : (join a b).lane i = if i < 16 then a.lane i else b.lane (i - 16) := id rfl
@[simp] theorem lo64_lane (a : V128) (i) : a.lo64.lane i = a.lane i := id rfl
@[simp] theorem hi64_lane (a : V128) (i) : a.hi64.lane i = a.lane (8 + i) := id rfl

theorem x2_ofList_lane (bs : List Byte) {i : Nat} (h : i < 32) : (Vec.x2 (.ofList bs)).lane i = bs.getD (i % 16) 0 := by
  simp only [Vec.x2, join_lane, Vec.ofList_lane]
  split
  · rw [Nat.mod_eq_of_lt (by assumption)]
  · congr 1; omega

@[simp] theorem join_lo_hi (a : V256) : join a.lo a.hi = a := by
  apply Vec.ext; intro i
  simp only [join_lane, lo_lane, hi_lane]
  split
  · rfl
  · congr 1; omega

theorem toList_split (a : V256) : a.toList = a.lo.toList ++ a.hi.toList := by
  apply List.ext_getElem
  · simp
  · intro i h1 h2
    by_cases h : i < 16
    · rw [List.getElem_append_left (by simpa using h)]; simp [Vec.toList_getElem]
    · rw [List.getElem_append_right (by simpa using h)]; simp [Vec.toList_getElem]
      congr 1; omega

namespace Intrin
variable {n : Nat}

@[simp] theorem set1_8_lane (x i) : (set1_8 x : Vec n).lane i = x := id rfl
@[simp] theorem map8_lane (f a b i) : (map8 f a b : Vec n).lane i = f (a.lane i) (b.lane i) := id rfl
theorem shuffle_lane (a b : Vec n) (i) : (shuffle_epi8 a b).lane i =
    if (b.lane i).toNat < 128 then a.lane (i / 16 * 16 + (b.lane i).toNat % 16) else 0 := id rfl
theorem tbl16_lane (a b : Vec n) (i) : (tbl16 a b).lane i =
    if (b.lane i).toNat < 16 then a.lane (i / 16 * 16 + (b.lane i).toNat) else 0 := id rfl
theorem unpacklo8_lane (a b : Vec n) (i) : (unpacklo8 a b).lane i =
    if i % 2 = 0 then a.lane (i / 16 * 16 + i % 16 / 2) else b.lane (i / 16 * 16 + i % 16 / 2) := id rfl
theorem unpackhi8_lane (a b : Vec n) (i) : (unpackhi8 a b).lane i =
    if i % 2 = 0 then a.lane (i / 16 * 16 + 8 + i % 16 / 2) else b.lane (i / 16 * 16 + 8 + i % 16 / 2) := id rfl
theorem unpacklo64_lane (a b : Vec n) (i) : (unpacklo64 a b).lane i =
    if i % 16 < 8 then a.lane (i / 16 * 16 + i % 8) else b.lane (i / 16 * 16 + i % 8) := id rfl
theorem uzp1_128_lane (a b i) : (uzp1_128 a b).lane i = if i < 8 then a.lane (2 * i) else b.lane (2 * (i - 8)) := id rfl
theorem uzp1_64_lane (a b i) : (uzp1_64 a b).lane i = if i < 4 then a.lane (2 * i) else b.lane (2 * (i - 4)) := id rfl
theorem cvtepu8_lane (a i) : (cvtepu8_epi16 a).lane i = if i % 2 = 0 then a.lane (i / 2) else 0 := id rfl
theorem permute4x64_lane (imm a i) : (permute4x64 imm a).lane i = a.lane (imm / 4 ^ (i / 8) % 4 * 8 + i % 8) := id rfl
theorem bsl_lane (a b c : Vec n) (i) :
    (bsl a b c).lane i = (a.lane i &&& b.lane i) ||| (~~~(a.lane i) &&& c.lane i) := id rfl
theorem of16_lane (f i) : (Vec.of16 f : Vec n).lane i = byteOf (f (i / 2)) (i % 2) := id rfl
theorem of32_lane (f i) : (Vec.of32 f : Vec n).lane i = byteOf (f (i / 4)) (i % 4) := id rfl

theorem byteOf_append16 (a b : Byte) : byteOf (a ++ b : BitVec 16) 0 = b ∧ byteOf (a ++ b : BitVec 16) 1 = a := by
  constructor
  · simp only [byteOf]
    ext k hk
    rw [BitVec.getElem_extractLsb', BitVec.getLsbD_append]; simp [hk]
  · simp only [byteOf]
    ext k hk
    rw [BitVec.getElem_extractLsb', BitVec.getLsbD_append]; simp [hk]

@[simp] theorem get16_of16 (f j) : (Vec.of16 f : Vec n).get16 j = f j := by
  simp only [Vec.get16, of16_lane]
  have h1 : (2 * j + 1) / 2 = j := by omega
  have h2 : (2 * j + 1) % 2 = 1 := by omega
  have h3 : (2 * j) / 2 = j := by omega
  have h4 : (2 * j) % 2 = 0 := by omega
  rw [h1, h2, h3, h4]
  ext k hk
  simp only [byteOf]
  rw [← BitVec.getLsbD_eq_getElem, BitVec.getLsbD_append]
  simp only [BitVec.getLsbD_extractLsb']
  split
  · simp [BitVec.getLsbD_eq_getElem, *]
  · rename_i h
    have h5 : k - 8 < 8 := by omega
    have h6 : 8 + (k - 8) = k := by omega
    simp [h5, h6, BitVec.getLsbD_eq_getElem, hk]

theorem join_map8 (f) (a b : V256) : join (map8 f a.lo b.lo) (map8 f a.hi b.hi) = map8 f a b := by
  apply Vec.ext; intro i
  simp only [join_lane, map8_lane, lo_lane, hi_lane]
  split
  · rfl
  · rw [show 16 + (i - 16) = i by omega]

theorem join_of16 (f g h : Nat → BitVec 16) (h1 : ∀ i, i < 8 → f i = h i) (h2 : ∀ i, 8 ≤ i → g (i - 8) = h i) :
    join (.of16 f) (.of16 g) = .of16 h := by
  apply Vec.ext; intro i
  simp only [join_lane, of16_lane]
  split
  · rw [h1 _ (by omega)]
  · rw [← h2 (i / 2) (by omega), show (i - 16) / 2 = i / 2 - 8 by omega, show (i - 16) % 2 = i % 2 by omega]

theorem join_of32 (f g h : Nat → BitVec 32) (h1 : ∀ i, i < 4 → f i = h i) (h2 : ∀ i, 4 ≤ i → g (i - 4) = h i) :
    join (.of32 f) (.of32 g) = .of32 h := by
  apply Vec.ext; intro i
  simp only [join_lane, of32_lane]
  split
  · rw [h1 _ (by omega)]
  · rw [← h2 (i / 4) (by omega), show (i - 16) / 4 = i / 4 - 4 by omega, show (i - 16) % 4 = i % 4 by omega]

@[simp] theorem lo_get16 (a : V256) (j) : a.lo.get16 j = a.get16 j := id rfl
@[simp] theorem lo_get32 (a : V256) (j) : a.lo.get32 j = a.get32 j := id rfl
theorem hi_get16 (a : V256) {j} (h : 8 ≤ j) : a.hi.get16 (j - 8) = a.get16 j := by
  simp only [Vec.get16, hi_lane]
  rw [show 16 + (2 * (j - 8) + 1) = 2 * j + 1 by omega, show 16 + 2 * (j - 8) = 2 * j by omega]
theorem hi_get32 (a : V256) {j} (h : 4 ≤ j) : a.hi.get32 (j - 4) = a.get32 j := by
  simp only [Vec.get32, hi_lane]
  rw [show 16 + (4 * (j - 4) + 1) = 4 * j + 1 by omega, show 16 + 4 * (j - 4) = 4 * j by omega,
    show 16 + (4 * (j - 4) + 2) = 4 * j + 2 by omega, show 16 + (4 * (j - 4) + 3) = 4 * j + 3 by omega]

theorem join_map16 (f) (a b : V256) : join (map16 f a.lo b.lo) (map16 f a.hi b.hi) = map16 f a b :=
  join_of16 _ _ _ (fun _ _ => rfl) (fun i h => by rw [hi_get16 a h, hi_get16 b h])
theorem join_map32 (f) (a b : V256) : join (map32 f a.lo b.lo) (map32 f a.hi b.hi) = map32 f a b :=
  join_of32 _ _ _ (fun _ _ => rfl) (fun i h => by rw [hi_get32 a h, hi_get32 b h])

theorem join_shl16 (k) (a : V256) : join (shl16 k a.lo) (shl16 k a.hi) = shl16 k a :=
  join_of16 _ _ _ (fun _ _ => rfl) (fun i h => by rw [hi_get16 a h])
theorem join_shr16 (k) (a : V256) : join (shr16 k a.lo) (shr16 k a.hi) = shr16 k a :=
  join_of16 _ _ _ (fun _ _ => rfl) (fun i h => by rw [hi_get16 a h])
theorem join_shl32 (k) (a : V256) : join (shl32 k a.lo) (shl32 k a.hi) = shl32 k a :=
  join_of32 _ _ _ (fun _ _ => rfl) (fun i h => by rw [hi_get32 a h])
theorem join_shr32 (k) (a : V256) : join (shr32 k a.lo) (shr32 k a.hi) = shr32 k a :=
  join_of32 _ _ _ (fun _ _ => rfl) (fun i h => by rw [hi_get32 a h])

theorem join_maddubs (a b : V256) : join (maddubs a.lo b.lo) (maddubs a.hi b.hi) = maddubs a b :=
  join_of16 _ _ _ (fun _ _ => rfl) (fun i h => by
    simp only [hi_lane]
    rw [show 16 + (2 * (i - 8) + 1) = 2 * i + 1 by omega, show 16 + 2 * (i - 8) = 2 * i by omega])
theorem join_madd16 (a b : V256) : join (madd16 a.lo b.lo) (madd16 a.hi b.hi) = madd16 a b :=
  join_of32 _ _ _ (fun _ _ => rfl) (fun i h => by
    rw [show 2 * (i - 4) + 1 = 2 * i + 1 - 8 by omega, show 2 * (i - 4) = 2 * i - 8 by omega,
      hi_get16 a (by omega), hi_get16 b (by omega), hi_get16 a (by omega), hi_get16 b (by omega)])

theorem join_shuffle (a b : V256) : join (shuffle_epi8 a.lo b.lo) (shuffle_epi8 a.hi b.hi) = shuffle_epi8 a b := by
  apply Vec.ext; intro i
  simp only [join_lane, shuffle_lane, lo_lane, hi_lane]
  split
  · rfl
  · rw [show 16 + (i - 16) = i by omega]
    split
    · congr 1; omega
    · rfl
theorem join_tbl16 (a b : V256) : join (tbl16 a.lo b.lo) (tbl16 a.hi b.hi) = tbl16 a b := by
  apply Vec.ext; intro i
  simp only [join_lane, tbl16_lane, lo_lane, hi_lane]
  split
  · rfl
  · rw [show 16 + (i - 16) = i by omega]
    split
    · congr 1; omega
    · rfl

theorem join_unpacklo8 (a b : V256) : join (unpacklo8 a.lo b.lo) (unpacklo8 a.hi b.hi) = unpacklo8 a b := by
  apply Vec.ext; intro i
  simp only [join_lane, unpacklo8_lane, lo_lane, hi_lane]
  split
  · rfl
  · rw [show (i - 16) % 2 = i % 2 by omega, show 16 + ((i - 16) / 16 * 16 + (i - 16) % 16 / 2) = i / 16 * 16 + i % 16 / 2 by omega]
theorem join_unpackhi8 (a b : V256) : join (unpackhi8 a.lo b.lo) (unpackhi8 a.hi b.hi) = unpackhi8 a b := by
  apply Vec.ext; intro i
  simp only [join_lane, unpackhi8_lane, lo_lane, hi_lane]
  split
  · rfl
  · rw [show (i - 16) % 2 = i % 2 by omega, show 16 + ((i - 16) / 16 * 16 + 8 + (i - 16) % 16 / 2) = i / 16 * 16 + 8 + i % 16 / 2 by omega]

theorem x2_set1_8 (x) : Vec.x2 (set1_8 x) = set1_8 x := by
  apply Vec.ext; intro i; simp [Vec.x2, join_lane]
theorem x2_set1_16 (x) : Vec.x2 (set1_16 x) = set1_16 x := join_of16 _ _ _ (fun _ _ => rfl) (fun _ _ => rfl)
theorem x2_set1_32 (x) : Vec.x2 (set1_32 x) = set1_32 x := join_of32 _ _ _ (fun _ _ => rfl) (fun _ _ => rfl)
theorem x2_set1_64 (x) : Vec.x2 (set1_64 x) = set1_64 x := by
  apply Vec.ext; intro i
  simp only [Vec.x2, join_lane, set1_64]
  split
  · rfl
  · rw [show (i - 16) % 8 = i % 8 by omega]

end Intrin

namespace Vs
open IsaId Intrin

theorem t1_eq {α : Type} (s : Isa) (r : α) : t1 s r = some r := by cases s <;> rfl

theorem vop1_eq {f : V128 → Option V128} {g : V128 → V128} (h : ∀ a, f a = some (g a)) (a) :
    vop1 f a = some (join (g a.lo) (g a.hi)) := by simp [vop1, h]
theorem vop2_eq {f : V128 → V128 → Option V128} {g : V128 → V128 → V128} (h : ∀ a b, f a b = some (g a b)) (a b) :
    vop2 f a b = some (join (g a.lo b.lo) (g a.hi b.hi)) := by simp [vop2, h]
theorem vop3_eq {f : V128 → V128 → V128 → Option V128} {g : V128 → V128 → V128 → V128}
    (h : ∀ a b c, f a b c = some (g a b c)) (a b c) :
    vop3 f a b c = some (join (g a.lo b.lo c.lo) (g a.hi b.hi c.hi)) := by simp [vop3, h]

section all
variable (s : Isa)

@[simp] theorem v128_create_zero_eq : v128_create_zero s = some (set1_8 0) := t1_eq _ _
@[simp] theorem v128_and_eq (a b) : v128_and s a b = some (Intrin.and a b) := t1_eq _ _
@[simp] theorem v128_or_eq (a b) : v128_or s a b = some (Intrin.or a b) := t1_eq _ _
@[simp] theorem v128_xor_eq (a b) : v128_xor s a b = some (Intrin.xor a b) := t1_eq _ _
theorem mm_andnot_eq {n} (a b : Vec n) : mm_andnot b a = bic a b := by
  apply Vec.ext; intro i; simp [mm_andnot, bic, BitVec.and_comm]
@[simp] theorem v128_andnot_eq (a b) : v128_andnot s a b = some (bic a b) := by
  cases s <;> simp [v128_andnot, Isa.is, mm_andnot_eq]
@[simp] theorem u8x16_splat_eq (x) : u8x16_splat s x = some (set1_8 x) := t1_eq _ _
@[simp] theorem u16x8_splat_eq (x) : u16x8_splat s x = some (set1_16 x) := t1_eq _ _
@[simp] theorem u32x4_splat_eq (x) : u32x4_splat s x = some (set1_32 x) := t1_eq _ _
@[simp] theorem u64x2_splat_eq (x) : u64x2_splat s x = some (set1_64 x) := t1_eq _ _
@[simp] theorem u8x16_add_eq (a b) : u8x16_add s a b = some (add8 a b) := t1_eq _ _
@[simp] theorem u8x16_sub_eq (a b) : u8x16_sub s a b = some (sub8 a b) := t1_eq _ _
@[simp] theorem u32x4_sub_eq (a b) : u32x4_sub s a b = some (sub32 a b) := t1_eq _ _
@[simp] theorem i8x16_add_sat_eq (a b) : i8x16_add_sat s a b = some (adds_i8 a b) := t1_eq _ _
@[simp] theorem u8x16_add_sat_eq (a b) : u8x16_add_sat s a b = some (adds_u8 a b) := t1_eq _ _
@[simp] theorem u8x16_sub_sat_eq (a b) : u8x16_sub_sat s a b = some (subs_u8 a b) := t1_eq _ _
@[simp] theorem u8x16_eq_eq (a b) : u8x16_eq s a b = some (eq8 a b) := t1_eq _ _
@[simp] theorem i8x16_lt_eq (a b) : i8x16_lt s a b = some (lt_i8 a b) := t1_eq _ _
@[simp] theorem u8x16_max_eq (a b) : u8x16_max s a b = some (max_u8 a b) := t1_eq _ _
@[simp] theorem u8x16_min_eq (a b) : u8x16_min s a b = some (min_u8 a b) := t1_eq _ _
@[simp] theorem i16x8_mul_lo_eq (a b) : i16x8_mul_lo s a b = some (mullo16 a b) := t1_eq _ _
@[simp] theorem u16x8_shl_eq (k a) : u16x8_shl s k a = some (shl16 k a) := t1_eq _ _
@[simp] theorem u32x4_shl_eq (k a) : u32x4_shl s k a = some (shl32 k a) := t1_eq _ _
@[simp] theorem u16x8_shr_eq (k a) : u16x8_shr s k a = some (shr16 k a) := t1_eq _ _
@[simp] theorem u32x4_shr_eq (k a) : u32x4_shr s k a = some (shr32 k a) := t1_eq _ _
@[simp] theorem u8x16_zip_lo_eq (a b) : u8x16_zip_lo s a b = some (unpacklo8 a b) := t1_eq _ _
@[simp] theorem u8x16_zip_hi_eq (a b) : u8x16_zip_hi s a b = some (unpackhi8 a b) := t1_eq _ _
@[simp] theorem u64x2_zip_lo_eq (a b) : u64x2_zip_lo s a b = some (unpacklo64 a b) := t1_eq _ _
@[simp] theorem u8x16_avgr_eq (a b) : u8x16_avgr s a b = some (avg_u8 a b) := t1_eq _ _

theorem lt_u8_via_max {n} (a b : Vec n) : Intrin.xor (eq8 a (max_u8 a b)) (eq8 a a) = lt_u8 a b := by
  apply Vec.ext; intro i
  simp only [Intrin.xor, eq8, max_u8, lt_u8, map8_lane]
  generalize a.lane i = x; generalize b.lane i = y
  by_cases h : x.ult y = true
  · have : x ≠ y := by rintro rfl; simp [BitVec.ult] at h
    simp [h, maskOf, this]
  · simp [h, maskOf]
@[simp] theorem u8x16_lt_eq (a b) : u8x16_lt s a b = some (lt_u8 a b) := by
  cases s <;> simp [u8x16_lt, Isa.is, lt_u8_via_max]

theorem bsl_via_xor {n} (a b c : Vec n) : Intrin.xor (Intrin.and (Intrin.xor b c) a) c = bsl a b c := by
  apply Vec.ext; intro i
  simp only [Intrin.xor, Intrin.and, bsl, map8_lane]
  generalize a.lane i = x; generalize b.lane i = y; generalize c.lane i = z
  ext k hk
  simp only [BitVec.getElem_xor, BitVec.getElem_and, BitVec.getElem_or, BitVec.getElem_not]
  cases x[k] <;> cases y[k] <;> cases z[k] <;> rfl
@[simp] theorem v128_bsl_eq (a b c) : v128_bsl s a b c = some (bsl a b c) := by
  cases s <;> simp [v128_bsl, Isa.is, bsl_via_xor]

@[simp] theorem v256_create_zero_eq : v256_create_zero s = some (set1_8 0) := by
  cases s <;> simp [v256_create_zero, Isa.is, x2_set1_8]
@[simp] theorem v256_and_eq (a b) : v256_and s a b = some (Intrin.and a b) := by
  simp [v256_and, vop2_eq (v128_and_eq s), Intrin.and, join_map8]
@[simp] theorem v256_or_eq (a b) : v256_or s a b = some (Intrin.or a b) := by
  simp [v256_or, vop2_eq (v128_or_eq s), Intrin.or, join_map8]
@[simp] theorem v256_xor_eq (a b) : v256_xor s a b = some (Intrin.xor a b) := by
  simp [v256_xor, vop2_eq (v128_xor_eq s), Intrin.xor, join_map8]
@[simp] theorem v256_andnot_eq (a b) : v256_andnot s a b = some (bic a b) := by
  simp [v256_andnot, vop2_eq (v128_andnot_eq s), mm_andnot_eq, bic, join_map8]
@[simp] theorem u8x32_splat_eq (x) : u8x32_splat s x = some (set1_8 x) := by
  simp [u8x32_splat, x2_set1_8]
@[simp] theorem u16x16_splat_eq (x) : u16x16_splat s x = some (set1_16 x) := by
  simp [u16x16_splat, x2_set1_16]
@[simp] theorem u32x8_splat_eq (x) : u32x8_splat s x = some (set1_32 x) := by
  simp [u32x8_splat, x2_set1_32]
@[simp] theorem u64x4_splat_eq (x) : u64x4_splat s x = some (set1_64 x) := by
  simp [u64x4_splat, x2_set1_64]
@[simp] theorem u8x32_add_eq (a b) : u8x32_add s a b = some (add8 a b) := by
  simp [u8x32_add, vop2_eq (u8x16_add_eq s), add8, join_map8]
@[simp] theorem u8x32_sub_eq (a b) : u8x32_sub s a b = some (sub8 a b) := by
  simp [u8x32_sub, vop2_eq (u8x16_sub_eq s), sub8, join_map8]
@[simp] theorem u32x8_sub_eq (a b) : u32x8_sub s a b = some (sub32 a b) := by
  simp [u32x8_sub, vop2_eq (u32x4_sub_eq s), sub32, join_map32]
@[simp] theorem i8x32_add_sat_eq (a b) : i8x32_add_sat s a b = some (adds_i8 a b) := by
  simp [i8x32_add_sat, vop2_eq (i8x16_add_sat_eq s), adds_i8, join_map8]
@[simp] theorem u8x32_sub_sat_eq (a b) : u8x32_sub_sat s a b = some (subs_u8 a b) := by
  simp [u8x32_sub_sat, vop2_eq (u8x16_sub_sat_eq s), subs_u8, join_map8]
@[simp] theorem u8x32_eq_eq (a b) : u8x32_eq s a b = some (eq8 a b) := by
  simp [u8x32_eq, vop2_eq (u8x16_eq_eq s), eq8, join_map8]
@[simp] theorem i8x32_lt_eq (a b) : i8x32_lt s a b = some (lt_i8 a b) := by
  simp [i8x32_lt, vop2_eq (i8x16_lt_eq s), lt_i8, join_map8]
@[simp] theorem u8x32_lt_eq (a b) : u8x32_lt s a b = some (lt_u8 a b) := by
  simp [u8x32_lt, vop2_eq (u8x16_lt_eq s), lt_u8_via_max, lt_u8, join_map8]
@[simp] theorem i16x16_mul_lo_eq (a b) : i16x16_mul_lo s a b = some (mullo16 a b) := by
  simp [i16x16_mul_lo, vop2_eq (i16x8_mul_lo_eq s), mullo16, join_map16]
@[simp] theorem u16x16_shl_eq (k a) : u16x16_shl s k a = some (shl16 k a) := by
  simp [u16x16_shl, vop1_eq (u16x8_shl_eq s k), join_shl16]
@[simp] theorem u16x16_shr_eq (k a) : u16x16_shr s k a = some (shr16 k a) := by
  simp [u16x16_shr, vop1_eq (u16x8_shr_eq s k), join_shr16]
@[simp] theorem u32x8_shl_eq (k a) : u32x8_shl s k a = some (shl32 k a) := by
  simp [u32x8_shl, vop1_eq (u32x4_shl_eq s k), join_shl32]
@[simp] theorem u32x8_shr_eq (k a) : u32x8_shr s k a = some (shr32 k a) := by
  simp [u32x8_shr, vop1_eq (u32x4_shr_eq s k), join_shr32]
@[simp] theorem u8x32_avgr_eq (a b) : u8x32_avgr s a b = some (avg_u8 a b) := by
  simp [u8x32_avgr, vop2_eq (u8x16_avgr_eq s), avg_u8, join_map8]
@[simp] theorem u8x16x2_zip_lo_eq (a b) : u8x16x2_zip_lo s a b = some (unpacklo8 a b) := by
  simp [u8x16x2_zip_lo, vop2_eq (u8x16_zip_lo_eq s), join_unpacklo8]
@[simp] theorem u8x16x2_zip_hi_eq (a b) : u8x16x2_zip_hi s a b = some (unpackhi8 a b) := by
  simp [u8x16x2_zip_hi, vop2_eq (u8x16_zip_hi_eq s), join_unpackhi8]
@[simp] theorem v256_bsl_eq (a b c) : v256_bsl s a b c = some (bsl a b c) := by
  cases s <;> simp [v256_bsl, Isa.is, bsl_via_xor, vop3_eq (v128_bsl_eq _)] <;>
  · apply Vec.ext; intro i
    simp only [join_lane, bsl_lane, lo_lane, hi_lane]
    split
    · rfl
    · rw [show 16 + (i - 16) = i by omega]

@[simp] theorem v128x2_zip_lo_eq (a b) : v128x2_zip_lo s a b = some (join a.lo b.lo) := by
  cases s <;> simp [v128x2_zip_lo, Isa.is]
  rfl
@[simp] theorem v128x2_zip_hi_eq (a b) : v128x2_zip_hi s a b = some (join a.hi b.hi) := by
  cases s <;> simp [v128x2_zip_hi, Isa.is]
  apply Vec.ext; intro i
  simp only [permute2x128_31, join_lane, hi_lane]
  split
  · rw [Nat.add_comm]
  · rw [show 16 + (i - 16) = i by omega]

theorem join_unpack_zero (a : V128) {i : Nat} (h : i < 32) :
    (join (unpacklo8 a (set1_8 0)) (unpackhi8 a (set1_8 0))).lane i = (cvtepu8_epi16 a).lane i := by
  simp only [join_lane, unpacklo8_lane, unpackhi8_lane, cvtepu8_lane, set1_8_lane]
  split
  · split
    · congr 1; omega
    · rfl
  · rw [show (i - 16) % 2 = i % 2 by omega]
    split
    · congr 1; omega
    · rfl

/-- The lanes of `u16x16_from_u8x16` on every instruction set. -/
theorem u16x16_from_u8x16_eq (a) : ∃ v, u16x16_from_u8x16 s a = some v ∧ ∀ i < 32, v.lane i = (cvtepu8_epi16 a).lane i := by
  cases s <;> simp [u16x16_from_u8x16, Isa.is] <;> exact fun i hi => join_unpack_zero a hi

/-- Swizzle with indices that are in range or have the high bit set. -/
theorem u8x16_swizzle_eq (hs : s ≠ .sse2) (a b : V128)
    (hb : ∀ i, (b.lane i).toNat < 16 ∨ 128 ≤ (b.lane i).toNat) : u8x16_swizzle s a b = some (shuffle_epi8 a b) := by
  have h : tbl16 a b = shuffle_epi8 a b := by
    apply Vec.ext; intro i
    simp only [tbl16_lane, shuffle_lane]
    rcases hb i with h | h
    · rw [if_pos h, if_pos (by omega), Nat.mod_eq_of_lt h]
    · rw [if_neg (by omega), if_neg (by omega)]
  cases s <;> simp [u8x16_swizzle, Isa.is, h] at hs ⊢

theorem u8x16x2_swizzle_eq (hs : s ≠ .sse2) (a b : V256)
    (hb : ∀ i, (b.lane i).toNat < 16 ∨ 128 ≤ (b.lane i).toNat) : u8x16x2_swizzle s a b = some (shuffle_epi8 a b) := by
  unfold u8x16x2_swizzle
  split
  · rfl
  · simp only [vop2]
    rw [u8x16_swizzle_eq s hs _ _ (fun i => by simpa using hb i),
      u8x16_swizzle_eq s hs _ _ (fun i => by simpa using hb (16 + i))]
    simp [join_shuffle]

end all

/-! ### Loads and stores as wholes -/

end Vs
end Simd
