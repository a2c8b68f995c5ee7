import Verif.Model.Base32
import Verif.Lemmas.Lanes
import Verif.Lemmas.Base32Spec
/-
The vector kernels of base32: `split_bits`, `encode_values`, `merge_bits`, `decode_ascii32`.
-/
namespace Simd.Base32
open Vs Intrin IsaId Spec

/-- The instruction sets of the encoders and decoders: SSE4.1, AVX2, NEON, WASM128. -/
def Good (s : Isa) : Prop := s ≠ .sse2 ∧ s ≠ .ssse3

theorem Good.ne {s} (h : Good s) : s ≠ .sse2 := h.1

theorem good_cases {s : Isa} (hs : Good s) :
    (s.is SSE41 = true ∧ s.is SSSE3 = true ∧ s.is SSE2 = true) ∨
      (s.is SSE41 = false ∧ s.is SSSE3 = false ∧ s.is SSE2 = false ∧ (s.is NEON || s.is WASM128) = true) := by
  obtain ⟨h1, h2⟩ := hs
  cases s <;> simp [Isa.is] at h1 h2 ⊢

/-! ### Encoding -/

/-- `y` holds the two 5-bit values of each 16-bit lane of `x`; lane `r` of a group drops `11 - 2 r` and `6 - 2 r` bits. -/
def Split {n} (x y : Vec n) : Prop := ∀ j r, r < 4 →
  (y.lane (8 * j + 2 * r)).toNat = (x.get16 (4 * j + r)).toNat / 2 ^ (11 - 2 * r) % 32 ∧
  (y.lane (8 * j + 2 * r + 1)).toNat = (x.get16 (4 * j + r)).toNat / 2 ^ (6 - 2 * r) % 32

theorem set64_get16 {n} (c j r) : (set1_64 c : Vec n).get16 (4 * j + r) = byteOf c ((2 * r + 1) % 8) ++ byteOf c (2 * r % 8) := by
  simp only [Vec.get16, set1_64]
  rw [show (2 * (4 * j + r) + 1) % 8 = (2 * r + 1) % 8 by omega, show 2 * (4 * j + r) % 8 = 2 * r % 8 by omega]

/-- The SSE formula of `split_bits`. -/
def splitA {n} (x : Vec n) : Vec n :=
  Intrin.or (Intrin.and (mulhi_u16 x (set1_64 (u16x4_to_u64 (1 <<< 5) (1 <<< 7) (1 <<< 9) (1 <<< 11)))) (set1_16 0x001f#16))
    (Intrin.and (mullo16 x (set1_64 (u16x4_to_u64 (1 <<< 2) (1 <<< 4) (1 <<< 6) (1 <<< 8)))) (set1_16 0x1f00#16))

/-- The NEON and WASM formula of `split_bits`. -/
def splitB {n} (x : Vec n) : Vec n :=
  Intrin.or (Intrin.and (mullo16 x (set1_64 (u16x4_to_u64 (1 <<< 2) (1 <<< 4) (1 <<< 6) (1 <<< 8)))) (set1_16 0x1f00#16))
    (shr16 8 (Intrin.and (mullo16 (shr16 4 x) (set1_64 (u16x4_to_u64 (1 <<< 1) (1 <<< 3) (1 <<< 5) (1 <<< 7)))) (set1_16 0x1f00#16)))

theorem set16_lane0 {n} (x j) : (set1_16 x : Vec n).lane (2 * j) = byteOf x 0 := by
  rw [set1_16, of16_lane, show 2 * j % 2 = 0 by omega]
theorem set16_lane1 {n} (x j) : (set1_16 x : Vec n).lane (2 * j + 1) = byteOf x 1 := by
  rw [set1_16, of16_lane, show (2 * j + 1) % 2 = 1 by omega]

theorem splitA_spec {n} (x : Vec n) : Split x (splitA x) := by
  intro j r hr
  have hv := (x.get16 (4 * j + r)).isLt
  rw [show 8 * j + 2 * r = 2 * (4 * j + r) by omega]
  simp only [splitA, or_lane, and_lane, set16_lane0, set16_lane1]
  rw [show byteOf 0x001f#16 0 = 0x1f#8 from rfl, show byteOf 0x001f#16 1 = 0x00#8 from rfl,
    show byteOf 0x1f00#16 0 = 0x00#8 from rfl, show byteOf 0x1f00#16 1 = 0x1f#8 from rfl,
    or_zero_toNat _ _ (mask_00 _), zero_or_toNat _ _ (mask_00 _), mask_1f, mask_1f]
  simp only [mulhi_u16, mullo16, map16, of16_lane0, of16_lane1, set64_get16, BitVec.toNat_ofNat, BitVec.toNat_mul]
  generalize (x.get16 (4 * j + r)).toNat = v at *
  interval_cases r
  · rw [show (byteOf (u16x4_to_u64 (1 <<< 5) (1 <<< 7) (1 <<< 9) (1 <<< 11)) ((2 * 0 + 1) % 8) ++
        byteOf (u16x4_to_u64 (1 <<< 5) (1 <<< 7) (1 <<< 9) (1 <<< 11)) (2 * 0 % 8)).toNat = 32 by decide,
      show (byteOf (u16x4_to_u64 (1 <<< 2) (1 <<< 4) (1 <<< 6) (1 <<< 8)) ((2 * 0 + 1) % 8) ++
        byteOf (u16x4_to_u64 (1 <<< 2) (1 <<< 4) (1 <<< 6) (1 <<< 8)) (2 * 0 % 8)).toNat = 4 by decide]
    refine ⟨?_, ?_⟩ <;> omega
  · rw [show (byteOf (u16x4_to_u64 (1 <<< 5) (1 <<< 7) (1 <<< 9) (1 <<< 11)) ((2 * 1 + 1) % 8) ++
        byteOf (u16x4_to_u64 (1 <<< 5) (1 <<< 7) (1 <<< 9) (1 <<< 11)) (2 * 1 % 8)).toNat = 128 by decide,
      show (byteOf (u16x4_to_u64 (1 <<< 2) (1 <<< 4) (1 <<< 6) (1 <<< 8)) ((2 * 1 + 1) % 8) ++
        byteOf (u16x4_to_u64 (1 <<< 2) (1 <<< 4) (1 <<< 6) (1 <<< 8)) (2 * 1 % 8)).toNat = 16 by decide]
    refine ⟨?_, ?_⟩ <;> omega
  · rw [show (byteOf (u16x4_to_u64 (1 <<< 5) (1 <<< 7) (1 <<< 9) (1 <<< 11)) ((2 * 2 + 1) % 8) ++
        byteOf (u16x4_to_u64 (1 <<< 5) (1 <<< 7) (1 <<< 9) (1 <<< 11)) (2 * 2 % 8)).toNat = 512 by decide,
      show (byteOf (u16x4_to_u64 (1 <<< 2) (1 <<< 4) (1 <<< 6) (1 <<< 8)) ((2 * 2 + 1) % 8) ++
        byteOf (u16x4_to_u64 (1 <<< 2) (1 <<< 4) (1 <<< 6) (1 <<< 8)) (2 * 2 % 8)).toNat = 64 by decide]
    refine ⟨?_, ?_⟩ <;> omega
  · rw [show (byteOf (u16x4_to_u64 (1 <<< 5) (1 <<< 7) (1 <<< 9) (1 <<< 11)) ((2 * 3 + 1) % 8) ++
        byteOf (u16x4_to_u64 (1 <<< 5) (1 <<< 7) (1 <<< 9) (1 <<< 11)) (2 * 3 % 8)).toNat = 2048 by decide,
      show (byteOf (u16x4_to_u64 (1 <<< 2) (1 <<< 4) (1 <<< 6) (1 <<< 8)) ((2 * 3 + 1) % 8) ++
        byteOf (u16x4_to_u64 (1 <<< 2) (1 <<< 4) (1 <<< 6) (1 <<< 8)) (2 * 3 % 8)).toNat = 256 by decide]
    refine ⟨?_, ?_⟩ <;> omega

/-- The low byte after `shr16 8` of a masked vector is the high byte. -/
theorem shr8_masked {n} (x : Vec n) (k) (h : ((x.lane (2 * k)).toNat = 0)) :
    ((shr16 8 x).lane (2 * k)).toNat = (x.lane (2 * k + 1)).toNat ∧ ((shr16 8 x).lane (2 * k + 1)).toNat = 0 := by
  have := (x.lane (2 * k + 1)).isLt
  simp only [shr16, of16_lane0, of16_lane1, BitVec.toNat_ushiftRight, Nat.shiftRight_eq_div_pow, get16_toNat]
  omega

theorem splitB_spec {n} (x : Vec n) : Split x (splitB x) := by
  intro j r hr
  have hv := (x.get16 (4 * j + r)).isLt
  rw [show 8 * j + 2 * r = 2 * (4 * j + r) by omega]
  obtain ⟨a0, a1⟩ := shr8_masked (Intrin.and (mullo16 (shr16 4 x) (set1_64 (u16x4_to_u64 (1 <<< 1) (1 <<< 3) (1 <<< 5) (1 <<< 7)))) (set1_16 0x1f00#16))
    (4 * j + r) (by rw [and_lane, set16_lane0]; exact mask_00 _)
  rw [and_lane, set16_lane1, show byteOf 0x1f00#16 1 = 0x1f#8 from rfl, mask_1f] at a0
  simp only [splitB, or_lane, and_lane, set16_lane0, set16_lane1]
  rw [show byteOf 0x1f00#16 0 = 0x00#8 from rfl, show byteOf 0x1f00#16 1 = 0x1f#8 from rfl,
    zero_or_toNat _ _ (mask_00 _), or_zero_toNat _ _ a1, mask_1f, a0]
  simp only [mullo16, map16, of16_lane1, shr16, get16_of16, set64_get16, BitVec.toNat_mul, BitVec.toNat_ushiftRight, Nat.shiftRight_eq_div_pow]
  generalize (x.get16 (4 * j + r)).toNat = v at *
  interval_cases r
  · rw [show (byteOf (u16x4_to_u64 (1 <<< 1) (1 <<< 3) (1 <<< 5) (1 <<< 7)) ((2 * 0 + 1) % 8) ++
        byteOf (u16x4_to_u64 (1 <<< 1) (1 <<< 3) (1 <<< 5) (1 <<< 7)) (2 * 0 % 8)).toNat = 2 by decide,
      show (byteOf (u16x4_to_u64 (1 <<< 2) (1 <<< 4) (1 <<< 6) (1 <<< 8)) ((2 * 0 + 1) % 8) ++
        byteOf (u16x4_to_u64 (1 <<< 2) (1 <<< 4) (1 <<< 6) (1 <<< 8)) (2 * 0 % 8)).toNat = 4 by decide]
    refine ⟨?_, ?_⟩ <;> omega
  · rw [show (byteOf (u16x4_to_u64 (1 <<< 1) (1 <<< 3) (1 <<< 5) (1 <<< 7)) ((2 * 1 + 1) % 8) ++
        byteOf (u16x4_to_u64 (1 <<< 1) (1 <<< 3) (1 <<< 5) (1 <<< 7)) (2 * 1 % 8)).toNat = 8 by decide,
      show (byteOf (u16x4_to_u64 (1 <<< 2) (1 <<< 4) (1 <<< 6) (1 <<< 8)) ((2 * 1 + 1) % 8) ++
        byteOf (u16x4_to_u64 (1 <<< 2) (1 <<< 4) (1 <<< 6) (1 <<< 8)) (2 * 1 % 8)).toNat = 16 by decide]
    refine ⟨?_, ?_⟩ <;> omega
  · rw [show (byteOf (u16x4_to_u64 (1 <<< 1) (1 <<< 3) (1 <<< 5) (1 <<< 7)) ((2 * 2 + 1) % 8) ++
        byteOf (u16x4_to_u64 (1 <<< 1) (1 <<< 3) (1 <<< 5) (1 <<< 7)) (2 * 2 % 8)).toNat = 32 by decide,
      show (byteOf (u16x4_to_u64 (1 <<< 2) (1 <<< 4) (1 <<< 6) (1 <<< 8)) ((2 * 2 + 1) % 8) ++
        byteOf (u16x4_to_u64 (1 <<< 2) (1 <<< 4) (1 <<< 6) (1 <<< 8)) (2 * 2 % 8)).toNat = 64 by decide]
    refine ⟨?_, ?_⟩ <;> omega
  · rw [show (byteOf (u16x4_to_u64 (1 <<< 1) (1 <<< 3) (1 <<< 5) (1 <<< 7)) ((2 * 3 + 1) % 8) ++
        byteOf (u16x4_to_u64 (1 <<< 1) (1 <<< 3) (1 <<< 5) (1 <<< 7)) (2 * 3 % 8)).toNat = 128 by decide,
      show (byteOf (u16x4_to_u64 (1 <<< 2) (1 <<< 4) (1 <<< 6) (1 <<< 8)) ((2 * 3 + 1) % 8) ++
        byteOf (u16x4_to_u64 (1 <<< 2) (1 <<< 4) (1 <<< 6) (1 <<< 8)) (2 * 3 % 8)).toNat = 256 by decide]
    refine ⟨?_, ?_⟩ <;> omega

theorem Split.lt {n} {x y : Vec n} (h : Split x y) (i) : (y.lane i).toNat < 32 := by
  have := h (i / 8) (i % 8 / 2) (by omega)
  rcases (by omega : i = 8 * (i / 8) + 2 * (i % 8 / 2) ∨ i = 8 * (i / 8) + 2 * (i % 8 / 2) + 1) with e | e
  · rw [e, this.1]; exact Nat.mod_lt _ (by omega)
  · rw [e, this.2]; exact Nat.mod_lt _ (by omega)

theorem split_bits_eq (s : Isa) (hs : s ≠ .sse2) (x : V256) :
    ∃ y, split_bits s x = some y ∧ Split (shuffle_epi8 x SPLIT_SHUFFLE) y := by
  unfold split_bits
  rw [show u8x16x2_swizzle s x SPLIT_SHUFFLE = some (shuffle_epi8 x SPLIT_SHUFFLE) from swz32 hs x (by decide)]
  rcases isa_cases s hs with ⟨h1, h2⟩ | ⟨h1, h2, h3⟩
  · refine ⟨splitA _, ?_, splitA_spec _⟩
    simp only [Option.bind_eq_bind, Option.bind_some, h1, if_true, u64x4_splat_eq, u16x16_splat_eq, u16x16_mul_hi_eq h2, i16x16_mul_lo_eq,
      v256_and_eq, v256_or_eq]
    rfl
  · refine ⟨splitB _, ?_, splitB_spec _⟩
    simp only [Option.bind_eq_bind, Option.bind_some, h1, h3, Bool.false_eq_true, if_false, if_true, u64x4_splat_eq, u16x16_splat_eq,
      i16x16_mul_lo_eq, u16x16_shr_eq, v256_and_eq, v256_or_eq]
    rfl

/-- The alphabet as a function. -/
def chr (kind : Kind) (v : Nat) : Byte := (charset kind).getD v 0

/-- On SSE4.1 and AVX2 the swizzle is `pshufb` for every index. -/
theorem swizzle_sse {s : Isa} (h : s.is SSE41 = true) (a b : V256) : u8x16x2_swizzle s a b = some (shuffle_epi8 a b) := by
  have h16 : ∀ a b, u8x16_swizzle s a b = some (shuffle_epi8 a b) := by
    cases s <;> simp [u8x16_swizzle, Isa.is] at h ⊢
  unfold u8x16x2_swizzle
  split
  · rfl
  · rw [vop2_eq h16, join_shuffle]

theorem blendv_lane {n} (a b c : Vec n) (i) : (blendv a b c).lane i = if (c.lane i).msb then b.lane i else a.lane i := id rfl

theorem u8x32_blendv_eq {s : Isa} (h : s.is SSE41 = true) (a b c : V256) : u8x32_blendv s a b c = some (blendv a b c) := by
  have h16 : ∀ a b c, u8x16_blendv s a b c = some (blendv a b c) := by
    intro a b c; simp [u8x16_blendv, h]
  unfold u8x32_blendv
  split
  · rfl
  · rw [if_neg (by cases s <;> simp [Isa.is] at h ⊢), vop3_eq h16]
    congr 1
    apply Vec.ext; intro i
    simp only [join_lane, blendv_lane, lo_lane, hi_lane]
    split
    · rfl
    · rw [show 16 + (i - 16) = i by omega]

theorem chr_cases (kind : Kind) (x : Byte) (h : x.toNat < 32) :
    (if (maskOf 8 ((0x0f#8).ult x)).msb then lk ((charset kind).drop 16) x else lk ((charset kind).take 16) x) = chr kind x.toNat ∧
    (maskOf 8 ((0x0f#8).ult x) &&& lk ((charset kind).drop 16) (x &&& 0x0f#8)) |||
      (~~~ (maskOf 8 ((0x0f#8).ult x)) &&& lk ((charset kind).take 16) (x &&& 0x0f#8)) = chr kind x.toNat := by
  have : ∀ k : Fin 32, ∀ y : Byte, y = BitVec.ofNat 8 k →
    (if (maskOf 8 ((0x0f#8).ult y)).msb then lk ((charset kind).drop 16) y else lk ((charset kind).take 16) y) = chr kind k ∧
    (maskOf 8 ((0x0f#8).ult y) &&& lk ((charset kind).drop 16) (y &&& 0x0f#8)) |||
      (~~~ (maskOf 8 ((0x0f#8).ult y)) &&& lk ((charset kind).take 16) (y &&& 0x0f#8)) = chr kind k := by
    have : ∀ k : Fin 32,
      (if (maskOf 8 ((0x0f#8).ult (BitVec.ofNat 8 k : Byte))).msb then lk ((charset kind).drop 16) (BitVec.ofNat 8 k : Byte) else lk ((charset kind).take 16) (BitVec.ofNat 8 k : Byte)) = chr kind k ∧
      (maskOf 8 ((0x0f#8).ult (BitVec.ofNat 8 k : Byte)) &&& lk ((charset kind).drop 16) ((BitVec.ofNat 8 k : Byte) &&& 0x0f#8)) |||
        (~~~ (maskOf 8 ((0x0f#8).ult (BitVec.ofNat 8 k : Byte))) &&& lk ((charset kind).take 16) ((BitVec.ofNat 8 k : Byte) &&& 0x0f#8)) = chr kind k := by
      cases kind <;> decide +kernel
    rintro k y rfl; exact this k
  exact this ⟨x.toNat, h⟩ x (by simp)

theorem lut_low (kind) : (ENCODING_LUT kind).low = Vec.x2 (.ofList ((charset kind).take 16)) := rfl
theorem lut_high (kind) : (ENCODING_LUT kind).high = Vec.x2 (.ofList ((charset kind).drop 16)) := rfl

theorem encode_values_eq {s : Isa} (hs : Good s) (kind : Kind) (x : V256) (hx : ∀ i, (x.lane i).toNat < 32) :
    ∃ y, encode_values s x (ENCODING_LUT kind) = some y ∧ ∀ i, i < 32 → y.lane i = chr kind (x.lane i).toNat := by
  unfold encode_values
  rcases good_cases hs with ⟨h1, h2, h3⟩ | ⟨h1, h2, h3, h4⟩
  · refine ⟨blendv (shuffle_epi8 (ENCODING_LUT kind).low x) (shuffle_epi8 (ENCODING_LUT kind).high x) (lt_u8 (set1_8 0x0f#8) x), ?_, ?_⟩
    · simp only [h1, if_true, swizzle_sse h1, u8x32_blendv_eq h1, u8x32_splat_eq, u8x32_lt_eq, Option.bind_eq_bind, Option.bind_some]
      rfl
    · intro i hi
      simp only [blendv_lane, lt_u8, map8_lane, set1_8_lane, lut_low, lut_high]
      rw [shuffle_holds (holds32 ((charset kind).take 16)) x hi, shuffle_holds (holds32 ((charset kind).drop 16)) x hi]
      exact (chr_cases kind _ (hx i)).1
  · rw [if_neg (by rw [h1]; exact Bool.false_ne_true)]
    by_cases ha : (s.is NEON && s.aarch64) = true
    · rw [if_pos ha]
      refine ⟨tbl32 (ENCODING_LUT kind).full x, ?_, ?_⟩
      · (cases s <;> simp [Isa.is, Isa.aarch64] at ha); simp [u8x32_swizzle, Isa.is, Isa.aarch64, Isa.arm]
      · intro i hi
        simp only [tbl32, if_pos (hx i)]
        exact Vec.ofList_lane _ _
    · rw [if_neg ha, if_pos h4]
      have h16 : ∀ i, ((Intrin.and x (set1_8 0x0f#8)).lane i).toNat < 16 := by
        intro i
        rw [and_lane, set1_8_lane, mask_0f]; exact Nat.mod_lt _ (by omega)
      refine ⟨bsl (lt_u8 (set1_8 0x0f#8) x) (shuffle_epi8 (ENCODING_LUT kind).high (Intrin.and x (set1_8 0x0f#8)))
        (shuffle_epi8 (ENCODING_LUT kind).low (Intrin.and x (set1_8 0x0f#8))), ?_, ?_⟩
      · simp only [u8x32_splat_eq, u8x32_lt_eq, v256_and_eq, v256_bsl_eq, Option.bind_eq_bind, Option.bind_some, BitVec.ofNat_eq_ofNat,
          u8x16x2_swizzle_eq s hs.ne _ _ (fun i => .inl (h16 i))]
      · intro i hi
        simp only [bsl_lane, lt_u8, map8_lane, set1_8_lane, lut_low, lut_high]
        rw [shuffle_holds (holds32 ((charset kind).take 16)) _ hi, shuffle_holds (holds32 ((charset kind).drop 16)) _ hi, and_lane, set1_8_lane]
        exact (chr_cases kind _ (hx i)).2

theorem shuffle_pairs (xs : List Byte) : ∀ j, j < 4 → ∀ r, r < 4 →
    (shuffle_epi8 (.ofList xs) SPLIT_SHUFFLE : V256).lane (2 * (4 * j + r)) = xs.getD (6 + (5 * j + (r + 1))) 0 ∧
    (shuffle_epi8 (.ofList xs) SPLIT_SHUFFLE : V256).lane (2 * (4 * j + r) + 1) = xs.getD (6 + (5 * j + r)) 0 := by
  intro j hj r hr
  interval_cases j <;> interval_cases r <;> simp [shuffle_lane, SPLIT_SHUFFLE]

section arith
variable {a b : Nat}
theorem arith0 (_ : a < 256) (_ : b < 256) : (b + 256 * a) / 2048 % 32 = a / 8 := by omega
theorem arith1 (_ : a < 256) (_ : b < 256) : (b + 256 * a) / 64 % 32 = a % 8 * 4 + b / 64 := by omega
theorem arith2 (_ : a < 256) (_ : b < 256) : (b + 256 * a) / 512 % 32 = a / 2 % 32 := by omega
theorem arith3 (_ : a < 256) (_ : b < 256) : (b + 256 * a) / 16 % 32 = a % 2 * 16 + b / 16 := by omega
theorem arith4 (_ : a < 256) (_ : b < 256) : (b + 256 * a) / 128 % 32 = a % 16 * 2 + b / 128 := by omega
theorem arith5 (_ : a < 256) (_ : b < 256) : (b + 256 * a) / 4 % 32 = b / 4 % 32 := by omega
theorem arith6 (_ : a < 256) (_ : b < 256) : (b + 256 * a) / 32 % 32 = a % 4 * 8 + b / 32 := by omega
theorem arith7 (_ : a < 256) (_ : b < 256) : (b + 256 * a) / 1 % 32 = b % 32 := by omega
end arith

theorem encode_bytes20_spec {s : Isa} (hs : Good s) (kind : Kind) (xs : List Byte) (hl : xs.length = 32) :
    ∃ y, encode_bytes20 s (.ofList xs) (ENCODING_LUT kind) = some y ∧
      y.toList = blocks 5 (encG (chr kind)) ((xs.drop 6).take 20) := by
  obtain ⟨x, hx, hsp⟩ := split_bits_eq s hs.ne (.ofList xs)
  obtain ⟨y, hy, hlane⟩ := encode_values_eq hs kind x hsp.lt
  refine ⟨y, by simp [encode_bytes20, hx, hy], ?_⟩
  apply eq_blocks (encG_length (chr kind))
  · simp [hl]
  · intro i hi
    have hi' : i < 32 := by simpa using hi
    rw [Vec.toList_getElem, hlane i hi']
    have hg : ∀ k, k < 20 → ((xs.drop 6).take 20).getD k 0 = xs.getD (6 + k) 0 := by
      intro k hk
      simp only [List.getD_eq_getElem?_getD, List.getElem?_take, List.getElem?_drop, if_pos hk]
    have e : ∀ r, r < 4 → (x.lane (8 * (i / 8) + 2 * r)).toNat =
          ((xs.getD (6 + (5 * (i / 8) + (r + 1))) 0).toNat + 256 * (xs.getD (6 + (5 * (i / 8) + r)) 0).toNat) / 2 ^ (11 - 2 * r) % 32 ∧
        (x.lane (8 * (i / 8) + 2 * r + 1)).toNat =
          ((xs.getD (6 + (5 * (i / 8) + (r + 1))) 0).toNat + 256 * (xs.getD (6 + (5 * (i / 8) + r)) 0).toNat) / 2 ^ (6 - 2 * r) % 32 := by
      intro r hr
      have := hsp (i / 8) r hr
      rw [get16_toNat, (shuffle_pairs xs (i / 8) (by omega) r hr).1, (shuffle_pairs xs (i / 8) (by omega) r hr).2] at this
      exact this
    obtain ⟨e0, e1⟩ := e 0 (by omega)
    obtain ⟨e2, e3⟩ := e 1 (by omega)
    obtain ⟨e4, e5⟩ := e 2 (by omega)
    obtain ⟨e6, e7⟩ := e 3 (by omega)
    simp only [encG, hg _ (by omega : 5 * (i / 8) + 0 < 20), hg _ (by omega : 5 * (i / 8) + 1 < 20), hg _ (by omega : 5 * (i / 8) + 2 < 20),
      hg _ (by omega : 5 * (i / 8) + 3 < 20), hg _ (by omega : 5 * (i / 8) + 4 < 20)]
    simp only [Nat.mul_zero, Nat.mul_one, Nat.reduceMul, Nat.reduceAdd, Nat.reduceSub, Nat.reducePow] at e0 e1 e2 e3 e4 e5 e6 e7
    have q := fun k => (xs.getD k 0).isLt
    rw [arith0 (q _) (q _)] at e0; rw [arith1 (q _) (q _)] at e1; rw [arith2 (q _) (q _)] at e2; rw [arith3 (q _) (q _)] at e3
    rw [arith4 (q _) (q _)] at e4; rw [arith5 (q _) (q _)] at e5; rw [arith6 (q _) (q _)] at e6; rw [arith7 (q _) (q _)] at e7
    have hm : i % 8 < 8 := Nat.mod_lt _ (by omega)
    rw [show x.lane i = x.lane (8 * (i / 8) + i % 8) by rw [Nat.div_add_mod]]
    generalize i % 8 = t at *
    interval_cases t <;> simp only [List.getElem?_cons_zero, List.getElem?_cons_succ, Option.some.injEq]
    · rw [e0]
    · rw [e1]
    · rw [e2]
    · rw [e3]
    · rw [e4]
    · rw [e5]
    · rw [e6]
    · rw [e7]

/-! ### Decoding -/

theorem toInt_small {w} (x : BitVec w) (h : 2 * x.toNat < 2 ^ w) : x.toInt = x.toNat := by
  rw [BitVec.toInt_eq_toNat_cond, if_pos h]

/-- Place of the first byte of group `j`. -/
def place (j : Nat) : Nat := 16 * (j / 2) + 5 * (j % 2)

/-- The bytes of each group of eight values, at `place`. -/
def Merged (x y : V256) : Prop := ∀ j, j < 4 → (∀ r, r < 8 → (x.lane (8 * j + r)).toNat < 32) →
  (y.lane (place j + 0)).toNat = (x.lane (8 * j + 0)).toNat * 8 + (x.lane (8 * j + 1)).toNat / 4 ∧
  (y.lane (place j + 1)).toNat = (x.lane (8 * j + 1)).toNat % 4 * 64 + (x.lane (8 * j + 2)).toNat * 2 + (x.lane (8 * j + 3)).toNat / 16 ∧
  (y.lane (place j + 2)).toNat = (x.lane (8 * j + 3)).toNat % 16 * 16 + (x.lane (8 * j + 4)).toNat / 2 ∧
  (y.lane (place j + 3)).toNat = (x.lane (8 * j + 4)).toNat % 2 * 128 + (x.lane (8 * j + 5)).toNat * 4 + (x.lane (8 * j + 6)).toNat / 8 ∧
  (y.lane (place j + 4)).toNat = (x.lane (8 * j + 6)).toNat % 8 * 32 + (x.lane (8 * j + 7)).toNat

theorem u32x8_blend_0x55_eq {s : Isa} (h : s.is SSE41 = true) (a b : V256) :
    ∃ z, u32x8_blend_0x55 s a b = some z ∧ ∀ i, i < 32 → z.lane i = if i / 4 % 2 = 0 then b.lane i else a.lane i := by
  unfold u32x8_blend_0x55
  split
  case isTrue h2 =>
    refine ⟨_, by rw [u32x8_blend, if_pos h2], ?_⟩
    intro i hi
    simp only [blend32]
    have hk : i / 4 < 8 := by omega
    generalize i / 4 = k at *
    interval_cases k <;> rfl
  case isFalse h2 =>
    have h16 : ∀ a b, u16x8_blend s 0x33 a b = some (blend16 0x33 a b) := by
      intro a b; simp [u16x8_blend, h]
    refine ⟨_, vop2_eq h16 a b, ?_⟩
    intro i hi
    simp only [join_lane, blend16, lo_lane, hi_lane]
    have key : ∀ k, k < 8 → (0x33 / 2 ^ k % 2 = 1 ↔ k / 2 % 2 = 0) := by decide
    split
    · rw [if_congr (key (i / 2) (by omega)) rfl rfl, show i / 2 / 2 = i / 4 by omega]
    · rw [if_congr (key ((i - 16) / 2) (by omega)) rfl rfl, show 16 + (i - 16) = i by omega,
        show (i - 16) / 2 / 2 % 2 = i / 4 % 2 by omega]

theorem merge_sse_bytes (z : V256) : ∀ j, j < 4 →
    (shuffle_epi8 z MERGE_S1).lane (place j + 0) = z.lane (8 * j + 1) ∧ (shuffle_epi8 z MERGE_S2).lane (place j + 0) = 0#8 ∧
    (shuffle_epi8 z MERGE_S1).lane (place j + 1) = z.lane (8 * j + 0) ∧ (shuffle_epi8 z MERGE_S2).lane (place j + 1) = z.lane (8 * j + 3) ∧
    (shuffle_epi8 z MERGE_S1).lane (place j + 2) = z.lane (8 * j + 2) ∧ (shuffle_epi8 z MERGE_S2).lane (place j + 2) = z.lane (8 * j + 5) ∧
    (shuffle_epi8 z MERGE_S1).lane (place j + 3) = z.lane (8 * j + 4) ∧ (shuffle_epi8 z MERGE_S2).lane (place j + 3) = z.lane (8 * j + 7) ∧
    (shuffle_epi8 z MERGE_S1).lane (place j + 4) = z.lane (8 * j + 6) ∧ (shuffle_epi8 z MERGE_S2).lane (place j + 4) = 0#8 := by
  intro j hj
  interval_cases j <;> simp [place, shuffle_lane, MERGE_S1, MERGE_S2, x2_ofList_lane]

theorem mergeA_spec (x z : V256)
    (hz : ∀ i, i < 32 → z.lane i = if i / 4 % 2 = 0 then (shl32 4 (maddubs (set1_32 0x01200480#32) x)).lane i
      else (maddubs (set1_32 0x01200480#32) x).lane i) :
    Merged x (Intrin.or (shuffle_epi8 z MERGE_S1) (shuffle_epi8 z MERGE_S2)) := by
  intro j hj hx
  have m0 : ∀ k a b, a < 32 → b < 32 → (x.lane (4 * k)).toNat = a → (x.lane (4 * k + 1)).toNat = b →
      ((maddubs (set1_32 0x01200480#32) x).get16 (2 * k)).toNat = a * 128 + b * 4 := by
    intro k a b ha hb ea eb
    simp only [maddubs, get16_of16]
    rw [show 2 * (2 * k) = 4 * k by omega, set32_lane0, set32_lane1, toInt_small _ (by omega), toInt_small _ (by omega), ea, eb,
      show (byteOf 0x01200480#32 0).toNat = 128 from rfl, show (byteOf 0x01200480#32 1).toNat = 4 from rfl, satI16,
      show max (-32768) (min 32767 (((128 : Nat) : Int) * (a : Int) + ((4 : Nat) : Int) * (b : Int))) = ((a * 128 + b * 4 : Nat) : Int) by omega,
      BitVec.ofInt_natCast, BitVec.toNat_ofNat]
    omega
  have m1 : ∀ k a b, a < 32 → b < 32 → (x.lane (4 * k + 2)).toNat = a → (x.lane (4 * k + 3)).toNat = b →
      ((maddubs (set1_32 0x01200480#32) x).get16 (2 * k + 1)).toNat = a * 32 + b := by
    intro k a b ha hb ea eb
    simp only [maddubs, get16_of16]
    rw [show 2 * (2 * k + 1) = 4 * k + 2 by omega, show 4 * k + 2 + 1 = 4 * k + 3 by omega, set32_lane2, set32_lane3, toInt_small _ (by omega), toInt_small _ (by omega), ea, eb,
      show (byteOf 0x01200480#32 2).toNat = 32 from rfl, show (byteOf 0x01200480#32 3).toNat = 1 from rfl, satI16,
      show max (-32768) (min 32767 (((32 : Nat) : Int) * (a : Int) + ((1 : Nat) : Int) * (b : Int))) = ((a * 32 + b : Nat) : Int) by omega,
      BitVec.ofInt_natCast, BitVec.toNat_ofNat]
    omega
  have x0 := hx 0 (by omega)
  have x1 := hx 1 (by omega)
  have x2 := hx 2 (by omega)
  have x3 := hx 3 (by omega)
  have x4 := hx 4 (by omega)
  have x5 := hx 5 (by omega)
  have x6 := hx 6 (by omega)
  have x7 := hx 7 (by omega)
  have w0 := m0 (2 * j) _ _ x0 x1 (by rw [show 4 * (2 * j) = 8 * j + 0 by omega]) (by rw [show 4 * (2 * j) + 1 = 8 * j + 1 by omega])
  have w1 := m1 (2 * j) _ _ x2 x3 (by rw [show 4 * (2 * j) + 2 = 8 * j + 2 by omega]) (by rw [show 4 * (2 * j) + 3 = 8 * j + 3 by omega])
  have w2 := m0 (2 * j + 1) _ _ x4 x5 (by rw [show 4 * (2 * j + 1) = 8 * j + 4 by omega]) (by rw [show 4 * (2 * j + 1) + 1 = 8 * j + 5 by omega])
  have w3 := m1 (2 * j + 1) _ _ x6 x7 (by rw [show 4 * (2 * j + 1) + 2 = 8 * j + 6 by omega]) (by rw [show 4 * (2 * j + 1) + 3 = 8 * j + 7 by omega])
  clear m0 m1 hx
  generalize maddubs (set1_32 0x01200480#32) x = w at *
  rw [get16_lo] at w0 w2; rw [get16_hi] at w1 w3
  have g := get32_toNat w (2 * j)
  have s0 : ((shl32 4 w).lane (8 * j + 0)).toNat = (w.get32 (2 * j)).toNat * 16 % 256 := by
    rw [show 8 * j + 0 = 4 * (2 * j) by omega, shl32, of32_lane0, BitVec.toNat_shiftLeft, Nat.shiftLeft_eq]; omega
  have s1 : ((shl32 4 w).lane (8 * j + 1)).toNat = (w.get32 (2 * j)).toNat * 16 / 256 % 256 := by
    rw [show 8 * j + 1 = 4 * (2 * j) + 1 by omega, shl32, of32_lane1, BitVec.toNat_shiftLeft, Nat.shiftLeft_eq]; omega
  have s2 : ((shl32 4 w).lane (8 * j + 2)).toNat = (w.get32 (2 * j)).toNat * 16 / 65536 % 256 := by
    rw [show 8 * j + 2 = 4 * (2 * j) + 2 by omega, shl32, of32_lane2, BitVec.toNat_shiftLeft, Nat.shiftLeft_eq]; omega
  have s3 : ((shl32 4 w).lane (8 * j + 3)).toNat = (w.get32 (2 * j)).toNat * 16 / 16777216 % 256 := by
    rw [show 8 * j + 3 = 4 * (2 * j) + 3 by omega, shl32, of32_lane3, BitVec.toNat_shiftLeft, Nat.shiftLeft_eq]; omega
  have z0 := hz (8 * j + 0) (by omega)
  have z1 := hz (8 * j + 1) (by omega)
  have z2 := hz (8 * j + 2) (by omega)
  have z3 := hz (8 * j + 3) (by omega)
  have z4 := hz (8 * j + 4) (by omega)
  have z5 := hz (8 * j + 5) (by omega)
  have z6 := hz (8 * j + 6) (by omega)
  have z7 := hz (8 * j + 7) (by omega)
  rw [if_pos (by omega)] at z0 z1 z2 z3
  rw [if_neg (by omega)] at z4 z5 z6 z7
  obtain ⟨a0, b0, a1, b1, a2, b2, a3, b3, a4, b4⟩ := merge_sse_bytes z j hj
  simp only [or_lane, a0, b0, a1, b1, a2, b2, a3, b3, a4, b4]
  rw [show 4 * (2 * j) = 8 * j + 0 by omega, show 8 * j + 0 + 1 = 8 * j + 1 by omega, show 8 * j + 0 + 2 = 8 * j + 2 by omega,
    show 8 * j + 0 + 3 = 8 * j + 3 by omega] at g
  rw [show 4 * (2 * j) = 8 * j + 0 by omega, show 8 * j + 0 + 1 = 8 * j + 1 by omega] at w0
  rw [show 4 * (2 * j) + 2 = 8 * j + 2 by omega, show 4 * (2 * j) + 3 = 8 * j + 3 by omega] at w1
  rw [show 4 * (2 * j + 1) = 8 * j + 4 by omega, show 8 * j + 4 + 1 = 8 * j + 5 by omega] at w2
  rw [show 4 * (2 * j + 1) + 2 = 8 * j + 6 by omega, show 4 * (2 * j + 1) + 3 = 8 * j + 7 by omega] at w3
  have l0 := (w.lane (8 * j + 0)).isLt
  have l1 := (w.lane (8 * j + 1)).isLt
  have l2 := (w.lane (8 * j + 2)).isLt
  have l3 := (w.lane (8 * j + 3)).isLt
  have l4 := (w.lane (8 * j + 4)).isLt
  have l5 := (w.lane (8 * j + 5)).isLt
  have l6 := (w.lane (8 * j + 6)).isLt
  have l7 := (w.lane (8 * j + 7)).isLt
  rw [← z0] at s0; rw [← z1] at s1; rw [← z2] at s2; rw [← z3] at s3
  rw [← z4] at w2 l4; rw [← z5] at w2 l5; rw [← z6] at w3 l6; rw [← z7] at w3 l7
  rw [show (w.get32 (2 * j)).toNat = ((x.lane (8 * j + 0)).toNat * 128 + (x.lane (8 * j + 1)).toNat * 4) +
    65536 * ((x.lane (8 * j + 2)).toNat * 32 + (x.lane (8 * j + 3)).toNat) by omega] at s0 s1 s2 s3
  clear g w0 w1 z0 z1 z2 z3 z4 z5 z6 z7 hz a0 b0 a1 b1 a2 b2 a3 b3 a4 b4 l0 l1 l2 l3
  generalize (x.lane (8 * j + 0)).toNat = v0 at *
  generalize (x.lane (8 * j + 1)).toNat = v1 at *
  generalize (x.lane (8 * j + 2)).toNat = v2 at *
  generalize (x.lane (8 * j + 3)).toNat = v3 at *
  generalize (x.lane (8 * j + 4)).toNat = v4 at *
  generalize (x.lane (8 * j + 5)).toNat = v5 at *
  generalize (x.lane (8 * j + 6)).toNat = v6 at *
  generalize (x.lane (8 * j + 7)).toNat = v7 at *
  refine ⟨?_, ?_, ?_, ?_, ?_⟩
  · rw [or_zero_toNat _ _ rfl]; omega
  · rw [or_add (c := v1 % 4) (k := 6) _ _ (by omega) (by omega)]; omega
  · rw [or_add (c := v3 % 16) (k := 4) _ _ (by omega) (by omega)]; omega
  · rw [or_add (c := v4 % 2 * 32 + v5) (k := 2) _ _ (by omega) (by omega)]; omega
  · rw [or_zero_toNat _ _ rfl]; omega

theorem merge_neon_bytes1 (a b : V256) : ∀ j, j < 4 →
    (shuffle_epi8 a MERGE_N1).lane (8 * j + 0) = a.lane (8 * j + 0) ∧ (shuffle_epi8 b MERGE_N2).lane (8 * j + 0) = b.lane (8 * j + 1) ∧
    (shuffle_epi8 a MERGE_N1).lane (8 * j + 1) = a.lane (8 * j + 2) ∧ (shuffle_epi8 b MERGE_N2).lane (8 * j + 1) = b.lane (8 * j + 0) ∧
    (shuffle_epi8 a MERGE_N1).lane (8 * j + 2) = a.lane (8 * j + 5) ∧ (shuffle_epi8 b MERGE_N2).lane (8 * j + 2) = b.lane (8 * j + 2) ∧
    (shuffle_epi8 a MERGE_N1).lane (8 * j + 3) = a.lane (8 * j + 7) ∧ (shuffle_epi8 b MERGE_N2).lane (8 * j + 3) = b.lane (8 * j + 4) ∧
    (shuffle_epi8 a MERGE_N1).lane (8 * j + 4) = a.lane (8 * j + 6) ∧ (shuffle_epi8 b MERGE_N2).lane (8 * j + 4) = b.lane (8 * j + 6) ∧
    (shuffle_epi8 a MERGE_N1).lane (8 * j + 5) = 0#8 ∧ (shuffle_epi8 b MERGE_N2).lane (8 * j + 5) = b.lane (8 * j + 3) ∧
    (shuffle_epi8 a MERGE_N1).lane (8 * j + 7) = a.lane (8 * j + 4) ∧ (shuffle_epi8 b MERGE_N2).lane (8 * j + 7) = 0#8 := by
  intro j hj
  interval_cases j <;> simp [shuffle_lane, MERGE_N1, MERGE_N2, x2_ofList_lane]

theorem merge_neon_bytes2 (z : V256) : ∀ j, j < 4 →
    (shuffle_epi8 z MERGE_N3).lane (place j + 0) = z.lane (8 * j + 0) ∧ (shuffle_epi8 z MERGE_N4).lane (place j + 0) = 0#8 ∧
    (shuffle_epi8 z MERGE_N3).lane (place j + 1) = z.lane (8 * j + 1) ∧ (shuffle_epi8 z MERGE_N4).lane (place j + 1) = z.lane (8 * j + 5) ∧
    (shuffle_epi8 z MERGE_N3).lane (place j + 2) = z.lane (8 * j + 2) ∧ (shuffle_epi8 z MERGE_N4).lane (place j + 2) = 0#8 ∧
    (shuffle_epi8 z MERGE_N3).lane (place j + 3) = z.lane (8 * j + 3) ∧ (shuffle_epi8 z MERGE_N4).lane (place j + 3) = z.lane (8 * j + 7) ∧
    (shuffle_epi8 z MERGE_N3).lane (place j + 4) = z.lane (8 * j + 4) ∧ (shuffle_epi8 z MERGE_N4).lane (place j + 4) = 0#8 := by
  intro j hj
  interval_cases j <;> simp [place, shuffle_lane, MERGE_N3, MERGE_N4, x2_ofList_lane]

/-- The NEON and WASM formula of `merge_bits` up to the first OR. -/
def mergeB7 (x : V256) : V256 :=
  Intrin.or (shuffle_epi8 (mullo16 (Intrin.and x (set1_16 0x001f#16)) (set1_64 (u16x4_to_u64 (1 <<< 3) (1 <<< 1) (1 <<< 7) (1 <<< 5)))) MERGE_N1)
    (shuffle_epi8 (mullo16 (shr16 8 x) (set1_64 (u16x4_to_u64 (1 <<< 6) (1 <<< 4) (1 <<< 2) (1 <<< 0)))) MERGE_N2)

theorem mergeB_spec (x : V256) : Merged x (Intrin.or (shuffle_epi8 (mergeB7 x) MERGE_N3) (shuffle_epi8 (mergeB7 x) MERGE_N4)) := by
  intro j hj hx
  have x0 := hx 0 (by omega)
  have x1 := hx 1 (by omega)
  have x2 := hx 2 (by omega)
  have x3 := hx 3 (by omega)
  have x4 := hx 4 (by omega)
  have x5 := hx 5 (by omega)
  have x6 := hx 6 (by omega)
  have x7 := hx 7 (by omega)
  have ga : ∀ r, r < 4 → ((Intrin.and x (set1_16 0x001f#16)).get16 (4 * j + r)).toNat = (x.lane (8 * j + 2 * r)).toNat := by
    intro r hr
    have := hx (2 * r) (by omega)
    rw [get16_toNat, and_lane, and_lane, set16_lane0, set16_lane1, show byteOf 0x001f#16 0 = 0x1f#8 from rfl,
      show byteOf 0x001f#16 1 = 0x00#8 from rfl, mask_00, mask_1f, show 2 * (4 * j + r) = 8 * j + 2 * r by omega]
    omega
  have gb : ∀ r, r < 4 → ((shr16 8 x).get16 (4 * j + r)).toNat = (x.lane (8 * j + (2 * r + 1))).toNat := by
    intro r hr
    have := hx (2 * r + 1) (by omega)
    have := (x.lane (2 * (4 * j + r))).isLt
    rw [shr16, get16_of16, BitVec.toNat_ushiftRight, Nat.shiftRight_eq_div_pow, get16_toNat, show 8 * j + (2 * r + 1) = 2 * (4 * j + r) + 1 by omega]
    omega
  have pa : ∀ r c, r < 4 → (byteOf (u16x4_to_u64 (1 <<< 3) (1 <<< 1) (1 <<< 7) (1 <<< 5)) ((2 * r + 1) % 8) ++
      byteOf (u16x4_to_u64 (1 <<< 3) (1 <<< 1) (1 <<< 7) (1 <<< 5)) (2 * r % 8)).toNat = c →
      ((mullo16 (Intrin.and x (set1_16 0x001f#16)) (set1_64 (u16x4_to_u64 (1 <<< 3) (1 <<< 1) (1 <<< 7) (1 <<< 5)))).lane (8 * j + 2 * r)).toNat =
        (x.lane (8 * j + 2 * r)).toNat * c % 65536 % 256 ∧
      ((mullo16 (Intrin.and x (set1_16 0x001f#16)) (set1_64 (u16x4_to_u64 (1 <<< 3) (1 <<< 1) (1 <<< 7) (1 <<< 5)))).lane (8 * j + (2 * r + 1))).toNat =
        (x.lane (8 * j + 2 * r)).toNat * c % 65536 / 256 := by
    intro r c hr hc
    rw [← ga r hr, ← hc, show 8 * j + (2 * r + 1) = 2 * (4 * j + r) + 1 by omega, show 8 * j + 2 * r = 2 * (4 * j + r) by omega, mullo16, map16,
      of16_lane0, of16_lane1, BitVec.toNat_mul, set64_get16]
    exact ⟨rfl, rfl⟩
  have pb : ∀ r c, r < 4 → (byteOf (u16x4_to_u64 (1 <<< 6) (1 <<< 4) (1 <<< 2) (1 <<< 0)) ((2 * r + 1) % 8) ++
      byteOf (u16x4_to_u64 (1 <<< 6) (1 <<< 4) (1 <<< 2) (1 <<< 0)) (2 * r % 8)).toNat = c →
      ((mullo16 (shr16 8 x) (set1_64 (u16x4_to_u64 (1 <<< 6) (1 <<< 4) (1 <<< 2) (1 <<< 0)))).lane (8 * j + 2 * r)).toNat =
        (x.lane (8 * j + (2 * r + 1))).toNat * c % 65536 % 256 ∧
      ((mullo16 (shr16 8 x) (set1_64 (u16x4_to_u64 (1 <<< 6) (1 <<< 4) (1 <<< 2) (1 <<< 0)))).lane (8 * j + (2 * r + 1))).toNat =
        (x.lane (8 * j + (2 * r + 1))).toNat * c % 65536 / 256 := by
    intro r c hr hc
    rw [← gb r hr, ← hc, show 8 * j + (2 * r + 1) = 2 * (4 * j + r) + 1 by omega, show 8 * j + 2 * r = 2 * (4 * j + r) by omega, mullo16, map16,
      of16_lane0, of16_lane1, BitVec.toNat_mul, set64_get16]
    exact ⟨rfl, rfl⟩
  obtain ⟨pa0, pa1⟩ := pa 0 8 (by omega) (by decide)
  obtain ⟨pa2, pa3⟩ := pa 1 2 (by omega) (by decide)
  obtain ⟨pa4, pa5⟩ := pa 2 128 (by omega) (by decide)
  obtain ⟨pa6, pa7⟩ := pa 3 32 (by omega) (by decide)
  obtain ⟨pb0, pb1⟩ := pb 0 64 (by omega) (by decide)
  obtain ⟨pb2, pb3⟩ := pb 1 16 (by omega) (by decide)
  obtain ⟨pb4, pb5⟩ := pb 2 4 (by omega) (by decide)
  obtain ⟨pb6, pb7⟩ := pb 3 1 (by omega) (by decide)
  clear pa pb ga gb hx
  simp only [Nat.mul_zero, Nat.mul_one, Nat.reduceMul, Nat.reduceAdd] at pa0 pa1 pa2 pa3 pa4 pa5 pa6 pa7 pb0 pb1 pb2 pb3 pb4 pb5 pb6 pb7
  obtain ⟨a0, b0, a1, b1, a2, b2, a3, b3, a4, b4⟩ := merge_neon_bytes2 (mergeB7 x) j hj
  simp only [or_lane, a0, b0, a1, b1, a2, b2, a3, b3, a4, b4]
  clear a0 b0 a1 b1 a2 b2 a3 b3 a4 b4
  unfold mergeB7
  generalize mullo16 (Intrin.and x (set1_16 0x001f#16)) (set1_64 (u16x4_to_u64 (1 <<< 3) (1 <<< 1) (1 <<< 7) (1 <<< 5))) = A at *
  generalize mullo16 (shr16 8 x) (set1_64 (u16x4_to_u64 (1 <<< 6) (1 <<< 4) (1 <<< 2) (1 <<< 0))) = B at *
  obtain ⟨a0, b0, a1, b1, a2, b2, a3, b3, a4, b4, a5, b5, a7, b7⟩ := merge_neon_bytes1 A B j hj
  simp only [or_lane, a0, b0, a1, b1, a2, b2, a3, b3, a4, b4, a5, b5, a7, b7]
  clear a0 b0 a1 b1 a2 b2 a3 b3 a4 b4 a5 b5 a7 b7
  generalize (x.lane (8 * j + 0)).toNat = v0 at *
  generalize (x.lane (8 * j + 1)).toNat = v1 at *
  generalize (x.lane (8 * j + 2)).toNat = v2 at *
  generalize (x.lane (8 * j + 3)).toNat = v3 at *
  generalize (x.lane (8 * j + 4)).toNat = v4 at *
  generalize (x.lane (8 * j + 5)).toNat = v5 at *
  generalize (x.lane (8 * j + 6)).toNat = v6 at *
  generalize (x.lane (8 * j + 7)).toNat = v7 at *
  have r0 := or_add (A.lane (8 * j + 0)) (B.lane (8 * j + 1)) (c := v0) (k := 3) (by omega) (by omega)
  have r1 := or_add (B.lane (8 * j + 0)) (A.lane (8 * j + 2)) (c := v1 % 4) (k := 6) (by omega) (by omega)
  have r2 := or_add (B.lane (8 * j + 2)) (A.lane (8 * j + 5)) (c := v3 % 16) (k := 4) (by omega) (by omega)
  have r3 := or_add (B.lane (8 * j + 4)) (A.lane (8 * j + 7)) (c := v5) (k := 2) (by omega) (by omega)
  have r4 := or_add (A.lane (8 * j + 6)) (B.lane (8 * j + 6)) (c := v6 % 8) (k := 5) (by omega) (by omega)
  refine ⟨?_, ?_, ?_, ?_, ?_⟩
  · rw [or_zero_toNat _ _ rfl]; omega
  · rw [BitVec.zero_or, BitVec.or_comm (A.lane _), or_add (c := v1 % 4 * 32 + v2) (k := 1) _ _ (by omega) (by omega)]; omega
  · rw [or_zero_toNat _ _ rfl, BitVec.or_comm (A.lane _)]; omega
  · rw [BitVec.or_zero, BitVec.or_comm (A.lane (8 * j + 7)), BitVec.or_comm _ (A.lane (8 * j + 4)),
      or_add (c := v4 % 2) (k := 7) _ _ (by omega) (by omega)]; omega
  · rw [or_zero_toNat _ _ rfl]; omega

theorem merge_bits_spec {s : Isa} (hs : Good s) (x : V256) : ∃ y, merge_bits s x = some y ∧ Merged x y := by
  unfold merge_bits
  rcases good_cases hs with ⟨h1, h2, h3⟩ | ⟨h1, h2, h3, h4⟩
  · obtain ⟨z, hz, hzl⟩ := u32x8_blend_0x55_eq h1 (maddubs (set1_32 0x01200480#32) x) (shl32 4 (maddubs (set1_32 0x01200480#32) x))
    refine ⟨_, ?_, mergeA_spec x z hzl⟩
    simp only [Option.bind_eq_bind, Option.bind_some, h1, if_true, u32x8_splat_eq, i16x16_maddubs_eq h2, u32x8_shl_eq, BitVec.ofNat_eq_ofNat, hz,
      swizzle_sse h1, v256_or_eq]
  · refine ⟨_, ?_, mergeB_spec x⟩
    have sw : ∀ a L, (∀ x ∈ L, x.toNat < 16 ∨ 128 ≤ x.toNat) → u8x16x2_swizzle s a (Vec.x2 (.ofList L)) = some (shuffle_epi8 a (Vec.x2 (.ofList L))) :=
      fun a L h => swzx2 hs.ne a h
    simp only [Option.bind_eq_bind, Option.bind_some, h1, h4, Bool.false_eq_true, if_false, if_true, u64x4_splat_eq, u16x16_splat_eq,
      i16x16_mul_lo_eq, u16x16_shr_eq, v256_and_eq, v256_or_eq]
    rw [show ∀ a, u8x16x2_swizzle s a MERGE_N1 = some (shuffle_epi8 a MERGE_N1) from fun a => sw a _ (by decide),
      show ∀ a, u8x16x2_swizzle s a MERGE_N2 = some (shuffle_epi8 a MERGE_N2) from fun a => sw a _ (by decide)]
    simp only [Option.bind_some]
    rw [show ∀ a, u8x16x2_swizzle s a MERGE_N3 = some (shuffle_epi8 a MERGE_N3) from fun a => sw a _ (by decide),
      show ∀ a, u8x16x2_swizzle s a MERGE_N4 = some (shuffle_epi8 a MERGE_N4) from fun a => sw a _ (by decide)]
    rfl

theorem alsw_good (kind) : GoodSpec (alsw kind) := by
  cases kind
  · exact Base32Alsw_good
  · exact Base32HexAlsw_good

theorem alsw_lt (kind) (c : Byte) (h : (alsw kind).decode c ≠ 255#8) : ((alsw kind).decode c).toNat < 32 := by
  cases kind <;> revert c <;> decide +kernel

/-- Result of the kernel that decodes the 32 characters `xs`. -/
def DecRes (kind : Kind) (xs : List Byte) (r : Except Unit V256) : Prop :=
  match r with
  | .ok y => decB (alsw kind).decode 8 decG xs = some (y.lo.toList.take 10 ++ y.hi.toList.take 10)
  | .error _ => decB (alsw kind).decode 8 decG xs = none

theorem place_getElem (y : V256) (j r : Nat) (hj : j < 4) (hr : r < 5) :
    (y.lo.toList.take 10 ++ y.hi.toList.take 10)[5 * j + r]? = some (y.lane (place j + r)) := by
  by_cases hlo : 5 * j + r < 10
  · rw [List.getElem?_append_left (by simpa using hlo), List.getElem?_take, if_pos hlo, List.getElem?_eq_getElem (by simp; omega),
      Vec.toList_getElem, lo_lane, show place j + r = 5 * j + r by unfold place; omega]
  · rw [List.getElem?_append_right (by simp; omega), List.getElem?_take, if_pos (by simp; omega), List.getElem?_eq_getElem (by simp; omega),
      Vec.toList_getElem, hi_lane, show place j + r = 16 + (5 * j + r - (y.lo.toList.take 10).length) by simp [place]; omega]

theorem decode_ascii32_spec {s : Isa} (hs : Good s) (kind : Kind) (xs : List Byte) (hl : xs.length = 32) :
    ∃ r, decode_ascii32 s (.ofList xs) (ALSW_CHECK_X2 kind) (ALSW_DECODE_X2 kind) = some r ∧ DecRes kind xs r := by
  obtain ⟨c1, c2, he, h⟩ := decode_ascii_xn_spec (alsw_good kind) (check := ALSW_CHECK_X2 kind) (decode := ALSW_DECODE_X2 kind)
    (holds32 _) (holds32 _) (holds32 _) (holds32 _) s hs.ne (.ofList xs)
  obtain ⟨y, hy, hm⟩ := merge_bits_spec hs c2
  have hany : (anyLane 32 fun i => (c1.lane i).msb) = anyLane 32 fun i => (alsw kind).decode ((Vec.ofList xs : V256).lane i) == 255#8 :=
    anyLane_congr fun i hi => (h i hi).1
  simp only [decode_ascii32, he, hy, Option.bind_eq_bind, Option.bind_some, u8x32_highbit_any_eq, hany]
  by_cases hb : (anyLane 32 fun i => (alsw kind).decode ((Vec.ofList xs : V256).lane i) == 255#8) = true
  · rw [hb]
    exact ⟨_, rfl, decB_none_iff.2 ((any_bad _ xs hl).1 hb)⟩
  · have hv : ∀ c ∈ xs, (alsw kind).decode c ≠ 255#8 := fun c hc h => hb ((any_bad _ xs hl).2 ⟨c, hc, h⟩)
    rw [Bool.not_eq_true] at hb
    rw [hb]
    refine ⟨_, rfl, ?_⟩
    show decB (alsw kind).decode 8 decG xs = _
    unfold decB
    rw [if_pos (by rw [List.all_eq_true]; intro c hc; rw [bne_iff_ne]; exact hv c hc)]
    congr 1; symm
    have hc2 : ∀ i, i < 32 → c2.lane i = (xs.map (alsw kind).decode).getD i 0 ∧ (c2.lane i).toNat < 32 := by
      intro i hi
      have hx : i < xs.length := by omega
      have hne : (alsw kind).decode ((Vec.ofList xs : V256).lane i) ≠ 255#8 := by
        rw [Vec.ofList_lane, List.getD_eq_getElem?_getD, List.getElem?_eq_getElem hx]
        exact hv _ (List.getElem_mem hx)
      have e := (h i hi).2 hne
      refine ⟨?_, by rw [e]; exact alsw_lt kind _ hne⟩
      rw [e, Vec.ofList_lane]
      simp [List.getD_eq_getElem?_getD, List.getElem?_eq_getElem hx]
    apply eq_blocks decG_length
    · simp [hl]
    · intro i hi
      have hi' : i < 20 := by simpa using hi
      obtain ⟨m0, m1, m2, m3, m4⟩ := hm (i / 5) (by omega) (fun r hr => (hc2 _ (by omega)).2)
      have k : ∀ r, r < 8 → (xs.map (alsw kind).decode).getD (8 * (i / 5) + r) 0 = c2.lane (8 * (i / 5) + r) := fun r hr => (hc2 _ (by omega)).1.symm
      have hr := place_getElem y (i / 5) (i % 5) (by omega) (by omega)
      rw [show 5 * (i / 5) + i % 5 = i by omega, List.getElem?_eq_getElem hi, Option.some.injEq] at hr
      rw [hr]
      simp only [decG, k 0 (by omega), k 1 (by omega), k 2 (by omega), k 3 (by omega), k 4 (by omega), k 5 (by omega), k 6 (by omega), k 7 (by omega)]
      have hlt := fun k => (y.lane k).isLt
      have hmod : i % 5 < 5 := Nat.mod_lt _ (by omega)
      generalize i % 5 = t at *
      interval_cases t <;> simp only [List.getElem?_cons_zero, List.getElem?_cons_succ, Option.some.injEq] <;>
        (apply BitVec.eq_of_toNat_eq; rw [BitVec.toNat_ofNat])
      · rw [← m0]; exact Nat.mod_eq_of_lt (hlt _)
      · rw [← m1]; exact Nat.mod_eq_of_lt (hlt _)
      · rw [← m2]; exact Nat.mod_eq_of_lt (hlt _)
      · rw [← m3]; exact Nat.mod_eq_of_lt (hlt _)
      · rw [← m4]; exact Nat.mod_eq_of_lt (hlt _)

end Simd.Base32
