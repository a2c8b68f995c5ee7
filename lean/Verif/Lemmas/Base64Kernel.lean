import Verif.Model.Base64
import Verif.Lemmas.Lanes
import Verif.Lemmas.Base64Spec
/-
The vectorised base64 kernels compute the group functions of `Base64Spec`.
-/
namespace Simd.Base64
open Vs IsaId Intrin

/-! ### Encoding -/

/-- Lanes of the result of splitting: four 6-bit values per group of four lanes. -/
structure Split {n} (x y : Vec n) : Prop where
  q0 : ∀ j, (y.lane (4 * j)).toNat = (x.lane (4 * j + 1)).toNat / 4
  q1 : ∀ j, (y.lane (4 * j + 1)).toNat = (x.lane (4 * j + 1)).toNat % 4 * 16 + (x.lane (4 * j)).toNat / 16
  q2 : ∀ j, (y.lane (4 * j + 2)).toNat = (x.lane (4 * j + 3)).toNat % 16 * 4 + (x.lane (4 * j + 2)).toNat / 64
  q3 : ∀ j, (y.lane (4 * j + 3)).toNat = (x.lane (4 * j + 2)).toNat % 64

theorem Split.lt {n} {x y : Vec n} (h : Split x y) (i) : (y.lane i).toNat < 64 := by
  have h0 := (x.lane (4 * (i / 4))).isLt
  have h1 := (x.lane (4 * (i / 4) + 1)).isLt
  have h2 := (x.lane (4 * (i / 4) + 2)).isLt
  have h3 := (x.lane (4 * (i / 4) + 3)).isLt
  rcases (by omega : i = 4 * (i / 4) ∨ i = 4 * (i / 4) + 1 ∨ i = 4 * (i / 4) + 2 ∨ i = 4 * (i / 4) + 3) with e | e | e | e <;> rw [e]
  · rw [h.q0]; omega
  · rw [h.q1]; omega
  · rw [h.q2]; omega
  · rw [h.q3]; omega

/-- The SSE formula. -/
def splitA {n} (x : Vec n) : Vec n :=
  Intrin.or (mulhi_u16 (Intrin.and x (set1_32 0x0fc0fc00#32)) (set1_32 0x04000040#32))
    (mullo16 (Intrin.and x (set1_32 0x003f03f0#32)) (set1_32 0x01000010#32))
/-- The NEON and WASM formula. -/
def splitB {n} (x : Vec n) : Vec n :=
  Intrin.or (Intrin.or (shr16 10 (Intrin.and x (set1_32 0x0000fc00#32))) (shl16 4 (Intrin.and x (set1_32 0x000003f0#32))))
    (Intrin.or (shr16 6 (Intrin.and x (set1_32 0x0fc00000#32))) (shl16 8 (Intrin.and x (set1_32 0x003f0000#32))))

theorem splitA_spec {n} (x : Vec n) : Split x (splitA x) := by
  have key : ∀ j, ((mulhi_u16 (Intrin.and x (set1_32 0x0fc0fc00#32)) (set1_32 0x04000040#32)).get16 (2 * j)).toNat = (x.lane (4 * j + 1)).toNat / 4 ∧
      ((mulhi_u16 (Intrin.and x (set1_32 0x0fc0fc00#32)) (set1_32 0x04000040#32)).get16 (2 * j + 1)).toNat = (x.lane (4 * j + 3)).toNat % 16 * 4 + (x.lane (4 * j + 2)).toNat / 64 ∧
      ((mullo16 (Intrin.and x (set1_32 0x003f03f0#32)) (set1_32 0x01000010#32)).get16 (2 * j)).toNat = 256 * ((x.lane (4 * j + 1)).toNat % 4 * 16 + (x.lane (4 * j)).toNat / 16) ∧
      ((mullo16 (Intrin.and x (set1_32 0x003f03f0#32)) (set1_32 0x01000010#32)).get16 (2 * j + 1)).toNat = 256 * ((x.lane (4 * j + 2)).toNat % 64) := by
    intro j
    have h0 := (x.lane (4 * j)).isLt
    have h1 := (x.lane (4 * j + 1)).isLt
    have h2 := (x.lane (4 * j + 2)).isLt
    have h3 := (x.lane (4 * j + 3)).isLt
    simp only [mulhi_u16, mullo16, map16, get16_of16, BitVec.toNat_ofNat, BitVec.toNat_mul, get16_lo, get16_hi, and_lane,
      set32_lane0, set32_lane1, set32_lane2, set32_lane3]
    rw [show byteOf 0x0fc0fc00#32 0 = 0x00#8 from rfl, show byteOf 0x0fc0fc00#32 1 = 0xfc#8 from rfl,
      show byteOf 0x0fc0fc00#32 2 = 0xc0#8 from rfl, show byteOf 0x0fc0fc00#32 3 = 0x0f#8 from rfl,
      show byteOf 0x04000040#32 0 = 0x40#8 from rfl, show byteOf 0x04000040#32 1 = 0x00#8 from rfl,
      show byteOf 0x04000040#32 2 = 0x00#8 from rfl, show byteOf 0x04000040#32 3 = 0x04#8 from rfl,
      show byteOf 0x003f03f0#32 0 = 0xf0#8 from rfl, show byteOf 0x003f03f0#32 1 = 0x03#8 from rfl,
      show byteOf 0x003f03f0#32 2 = 0x3f#8 from rfl, show byteOf 0x003f03f0#32 3 = 0x00#8 from rfl,
      show byteOf 0x01000010#32 0 = 0x10#8 from rfl, show byteOf 0x01000010#32 1 = 0x00#8 from rfl,
      show byteOf 0x01000010#32 2 = 0x00#8 from rfl, show byteOf 0x01000010#32 3 = 0x01#8 from rfl]
    simp only [mask_fc, mask_00, mask_c0, mask_0f, mask_f0, mask_03, mask_3f, BitVec.toNat_ofNat]
    refine ⟨?_, ?_, ?_, ?_⟩ <;> omega
  have e : ∀ i, (splitA x).lane i = (mulhi_u16 (Intrin.and x (set1_32 0x0fc0fc00#32)) (set1_32 0x04000040#32)).lane i |||
    (mullo16 (Intrin.and x (set1_32 0x003f03f0#32)) (set1_32 0x01000010#32)).lane i := fun i => by rw [splitA, or_lane]
  have a0 := fun j => get16_lo (mulhi_u16 (Intrin.and x (set1_32 0x0fc0fc00#32)) (set1_32 0x04000040#32)) j
  have a1 := fun j => get16_hi (mulhi_u16 (Intrin.and x (set1_32 0x0fc0fc00#32)) (set1_32 0x04000040#32)) j
  have b0 := fun j => get16_lo (mullo16 (Intrin.and x (set1_32 0x003f03f0#32)) (set1_32 0x01000010#32)) j
  have b1 := fun j => get16_hi (mullo16 (Intrin.and x (set1_32 0x003f03f0#32)) (set1_32 0x01000010#32)) j
  generalize (mulhi_u16 (Intrin.and x (set1_32 0x0fc0fc00#32)) (set1_32 0x04000040#32)) = u at *
  generalize (mullo16 (Intrin.and x (set1_32 0x003f03f0#32)) (set1_32 0x01000010#32)) = w at *
  constructor <;> intro j <;> rw [e]
  all_goals
    obtain ⟨k0, k1, k2, k3⟩ := key j
    have a0 := a0 j
    have a1 := a1 j
    have b0 := b0 j
    have b1 := b1 j
    have h0 := (x.lane (4 * j)).isLt
    have h1 := (x.lane (4 * j + 1)).isLt
    have h2 := (x.lane (4 * j + 2)).isLt
    have h3 := (x.lane (4 * j + 3)).isLt
    have u0 := (u.lane (4 * j)).isLt
    have u1 := (u.lane (4 * j + 1)).isLt
    have u2 := (u.lane (4 * j + 2)).isLt
    have u3 := (u.lane (4 * j + 3)).isLt
    have w0 := (w.lane (4 * j)).isLt
    have w1 := (w.lane (4 * j + 1)).isLt
    have w2 := (w.lane (4 * j + 2)).isLt
    have w3 := (w.lane (4 * j + 3)).isLt
  · rw [or_zero_toNat _ _ (by omega)]; omega
  · rw [zero_or_toNat _ _ (by omega)]; omega
  · rw [or_zero_toNat _ _ (by omega)]; omega
  · rw [zero_or_toNat _ _ (by omega)]; omega

theorem splitB_spec {n} (x : Vec n) : Split x (splitB x) := by
  have key : ∀ j, ((shr16 10 (Intrin.and x (set1_32 0x0000fc00#32))).get16 (2 * j)).toNat = (x.lane (4 * j + 1)).toNat / 4 ∧
      ((shr16 10 (Intrin.and x (set1_32 0x0000fc00#32))).get16 (2 * j + 1)).toNat = 0 ∧
      ((shl16 4 (Intrin.and x (set1_32 0x000003f0#32))).get16 (2 * j)).toNat = 256 * ((x.lane (4 * j + 1)).toNat % 4 * 16 + (x.lane (4 * j)).toNat / 16) ∧
      ((shl16 4 (Intrin.and x (set1_32 0x000003f0#32))).get16 (2 * j + 1)).toNat = 0 ∧
      ((shr16 6 (Intrin.and x (set1_32 0x0fc00000#32))).get16 (2 * j)).toNat = 0 ∧
      ((shr16 6 (Intrin.and x (set1_32 0x0fc00000#32))).get16 (2 * j + 1)).toNat = (x.lane (4 * j + 3)).toNat % 16 * 4 + (x.lane (4 * j + 2)).toNat / 64 ∧
      ((shl16 8 (Intrin.and x (set1_32 0x003f0000#32))).get16 (2 * j)).toNat = 0 ∧
      ((shl16 8 (Intrin.and x (set1_32 0x003f0000#32))).get16 (2 * j + 1)).toNat = 256 * ((x.lane (4 * j + 2)).toNat % 64) := by
    intro j
    have h0 := (x.lane (4 * j)).isLt
    have h1 := (x.lane (4 * j + 1)).isLt
    have h2 := (x.lane (4 * j + 2)).isLt
    have h3 := (x.lane (4 * j + 3)).isLt
    simp only [shl16, shr16, get16_of16, BitVec.toNat_shiftLeft, BitVec.toNat_ushiftRight, get16_lo, get16_hi, and_lane,
      set32_lane0, set32_lane1, set32_lane2, set32_lane3, Nat.shiftLeft_eq, Nat.shiftRight_eq_div_pow]
    rw [show byteOf 0x0000fc00#32 0 = 0x00#8 from rfl, show byteOf 0x0000fc00#32 1 = 0xfc#8 from rfl,
      show byteOf 0x0000fc00#32 2 = 0x00#8 from rfl, show byteOf 0x0000fc00#32 3 = 0x00#8 from rfl,
      show byteOf 0x000003f0#32 0 = 0xf0#8 from rfl, show byteOf 0x000003f0#32 1 = 0x03#8 from rfl,
      show byteOf 0x000003f0#32 2 = 0x00#8 from rfl, show byteOf 0x000003f0#32 3 = 0x00#8 from rfl,
      show byteOf 0x0fc00000#32 0 = 0x00#8 from rfl, show byteOf 0x0fc00000#32 1 = 0x00#8 from rfl,
      show byteOf 0x0fc00000#32 2 = 0xc0#8 from rfl, show byteOf 0x0fc00000#32 3 = 0x0f#8 from rfl,
      show byteOf 0x003f0000#32 0 = 0x00#8 from rfl, show byteOf 0x003f0000#32 1 = 0x00#8 from rfl,
      show byteOf 0x003f0000#32 2 = 0x3f#8 from rfl, show byteOf 0x003f0000#32 3 = 0x00#8 from rfl]
    simp only [mask_fc, mask_00, mask_c0, mask_0f, mask_f0, mask_03, mask_3f, Nat.reducePow]
    refine ⟨?_, ?_, ?_, ?_, ?_, ?_, ?_, ?_⟩ <;> first | trivial | omega
  have e : ∀ i, (splitB x).lane i = (shr16 10 (Intrin.and x (set1_32 0x0000fc00#32))).lane i ||| (shl16 4 (Intrin.and x (set1_32 0x000003f0#32))).lane i |||
    ((shr16 6 (Intrin.and x (set1_32 0x0fc00000#32))).lane i ||| (shl16 8 (Intrin.and x (set1_32 0x003f0000#32))).lane i) := fun i => by
      rw [splitB, or_lane, or_lane, or_lane]
  have l := fun (v : Vec n) j => get16_lo v j
  have h := fun (v : Vec n) j => get16_hi v j
  have l1 := l (shr16 10 (Intrin.and x (set1_32 0x0000fc00#32)))
  have l2 := l (shl16 4 (Intrin.and x (set1_32 0x000003f0#32)))
  have l3 := l (shr16 6 (Intrin.and x (set1_32 0x0fc00000#32)))
  have l4 := l (shl16 8 (Intrin.and x (set1_32 0x003f0000#32)))
  have h1 := h (shr16 10 (Intrin.and x (set1_32 0x0000fc00#32)))
  have h2 := h (shl16 4 (Intrin.and x (set1_32 0x000003f0#32)))
  have h3 := h (shr16 6 (Intrin.and x (set1_32 0x0fc00000#32)))
  have h4 := h (shl16 8 (Intrin.and x (set1_32 0x003f0000#32)))
  generalize (shr16 10 (Intrin.and x (set1_32 0x0000fc00#32))) = v1 at *
  generalize (shl16 4 (Intrin.and x (set1_32 0x000003f0#32))) = v2 at *
  generalize (shr16 6 (Intrin.and x (set1_32 0x0fc00000#32))) = v3 at *
  generalize (shl16 8 (Intrin.and x (set1_32 0x003f0000#32))) = v4 at *
  have b := fun (v : Vec n) i => (v.lane i).isLt
  have p0 := fun j => (x.lane (4 * j)).isLt
  have p1 := fun j => (x.lane (4 * j + 1)).isLt
  have p2 := fun j => (x.lane (4 * j + 2)).isLt
  have p3 := fun j => (x.lane (4 * j + 3)).isLt
  constructor <;> intro j <;> rw [e]
  all_goals
    obtain ⟨k0, k1, k2, k3, k4, k5, k6, k7⟩ := key j
    rw [l1] at k0; rw [h1] at k1; rw [l2] at k2; rw [h2] at k3
    rw [l3] at k4; rw [h3] at k5; rw [l4] at k6; rw [h4] at k7
    have p0 := p0 j
    have p1 := p1 j
    have p2 := p2 j
    have p3 := p3 j
    have b1 := fun i => b v1 i
    have b2 := fun i => b v2 i
    have b3 := fun i => b v3 i
    have b4 := fun i => b v4 i
  · have := b1 (4 * j); have := b2 (4 * j); have := b3 (4 * j); have := b4 (4 * j)
    rw [or_zero_toNat _ _ (by rw [or_zero_toNat _ _ (by omega)]; omega), or_zero_toNat _ _ (by omega)]; omega
  · have := b1 (4 * j); have := b2 (4 * j); have := b3 (4 * j); have := b4 (4 * j)
    rw [or_zero_toNat _ _ (by rw [or_zero_toNat _ _ (by omega)]; omega), zero_or_toNat _ _ (by omega)]; omega
  · have := b1 (4 * j+2); have := b2 (4 * j+2); have := b3 (4 * j+2); have := b4 (4 * j+2)
    rw [zero_or_toNat _ _ (by rw [or_zero_toNat _ _ (by omega)]; omega), or_zero_toNat _ _ (by omega)]; omega
  · have := b1 (4 * j+2); have := b2 (4 * j+2); have := b3 (4 * j+2); have := b4 (4 * j+2)
    rw [zero_or_toNat _ _ (by rw [or_zero_toNat _ _ (by omega)]; omega), zero_or_toNat _ _ (by omega)]; omega

theorem split_bits_x2_eq (s : Isa) (hs : s ≠ .sse2) (x : V256) :
    ∃ y, split_bits_x2 s x = some y ∧ Split (shuffle_epi8 x SPLIT_SHUFFLE) y := by
  unfold split_bits_x2
  rw [show u8x16x2_swizzle s x SPLIT_SHUFFLE = some (shuffle_epi8 x SPLIT_SHUFFLE) from swz32 hs x (by decide)]
  rcases isa_cases s hs with ⟨h1, h2⟩ | ⟨h1, h2, h3⟩
  · refine ⟨splitA _, ?_, splitA_spec _⟩
    simp [h2, u16x16_mul_hi_eq h2, splitA]
  · refine ⟨splitB _, ?_, splitB_spec _⟩
    simp only [Option.bind_eq_bind, Option.bind_some, h2, h3, Bool.false_eq_true, if_false, if_true, u32x8_splat_eq, v256_and_eq,
      u16x16_shr_eq, u16x16_shl_eq, v256_or_eq]
    rfl

theorem split_bits_x1_eq (s : Isa) (hs : s ≠ .sse2) (x : V128) :
    ∃ y, split_bits_x1 s x = some y ∧ Split (shuffle_epi8 x SPLIT_SHUFFLE.hi) y := by
  unfold split_bits_x1
  rw [u8x16_swizzle_eq s hs x SPLIT_SHUFFLE.hi (fun i => by rw [hi_lane]; exact idx_ok32 (by decide) _)]
  rcases isa_cases s hs with ⟨h1, h2⟩ | ⟨h1, h2, h3⟩
  · refine ⟨splitA _, ?_, splitA_spec _⟩
    simp [h2, u16x8_mul_hi_eq h2, splitA]
  · refine ⟨splitB _, ?_, splitB_spec _⟩
    simp only [Option.bind_eq_bind, Option.bind_some, h2, h3, Bool.false_eq_true, if_false, if_true, u32x4_splat_eq, v128_and_eq,
      u16x8_shr_eq, u16x8_shl_eq, v128_or_eq]
    rfl

/-- The alphabet as a function. -/
def chr (kind : Kind) (v : Nat) : Byte := (charset kind).getD v 0

/-- `encode_values` on one lane. -/
theorem encode_value (kind : Kind) (x : Byte) (h : x.toNat < 64) :
    (BitVec.ofNat 8 (x.toNat - 51) ||| (maskOf 8 (x.slt 26#8) &&& 13#8)).toNat < 16 ∧
    x + lk (encoding_shift (charset kind)) (BitVec.ofNat 8 (x.toNat - 51) ||| (maskOf 8 (x.slt 26#8) &&& 13#8)) = chr kind x.toNat := by
  have : ∀ k : Fin 64, ∀ y : Byte, y = BitVec.ofNat 8 k → (BitVec.ofNat 8 (y.toNat - 51) ||| (maskOf 8 (y.slt 26#8) &&& 13#8)).toNat < 16 ∧
    y + lk (encoding_shift (charset kind)) (BitVec.ofNat 8 (y.toNat - 51) ||| (maskOf 8 (y.slt 26#8) &&& 13#8)) = chr kind k := by
    have : ∀ k : Fin 64, (BitVec.ofNat 8 ((BitVec.ofNat 8 k : Byte).toNat - 51) ||| (maskOf 8 ((BitVec.ofNat 8 k : Byte).slt 26#8) &&& 13#8)).toNat < 16 ∧
      (BitVec.ofNat 8 k : Byte) + lk (encoding_shift (charset kind)) (BitVec.ofNat 8 ((BitVec.ofNat 8 k : Byte).toNat - 51) |||
        (maskOf 8 ((BitVec.ofNat 8 k : Byte).slt 26#8) &&& 13#8)) = chr kind k := by
      cases kind <;> decide +kernel
    rintro k y rfl; exact this k
  exact this ⟨x.toNat, h⟩ x (by simp)

theorem encode_values_eq {n} [Scalable n] [LawfulScalable n] (s : Isa) (hs : s ≠ .sse2) (kind : Kind) (x lut : Vec n)
    (hlut : Holds lut (encoding_shift (charset kind))) (hx : ∀ i, (x.lane i).toNat < 64) :
    ∃ y, encode_values s x lut = some y ∧ ∀ i, i < n → y.lane i = chr kind (x.lane i).toNat := by
  refine ⟨add8 x (shuffle_epi8 lut (Intrin.or (subs_u8 x (set1_8 51#8)) (Intrin.and (lt_i8 x (set1_8 26#8)) (set1_8 13#8)))), ?_, ?_⟩
  · unfold encode_values
    simp only [LawfulScalable.splat8_eq, LawfulScalable.subs_eq, LawfulScalable.lt_eq, LawfulScalable.and_eq, LawfulScalable.or_eq,
      LawfulScalable.add_eq, Option.bind_eq_bind, Option.bind_some]
    rw [LawfulScalable.swizzle_eq s hs _ _ (fun i => .inl (encode_value kind (x.lane i) (hx i)).1)]
    rfl
  · intro i hi
    simp only [add8, map8_lane]
    rw [shuffle_holds hlut _ hi]
    exact (encode_value kind (x.lane i) (hx i)).2

theorem encode_bytes24_spec (s : Isa) (hs : s ≠ .sse2) (kind : Kind) (xs : List Byte) (hl : xs.length = 32) :
    ∃ y, encode_bytes24 s (.ofList xs) (ENCODING_SHIFT_X2 kind) = some y ∧
      y.toList = blocks 3 (encG (chr kind)) ((xs.drop 4).take 24) := by
  obtain ⟨x, hx, hsp⟩ := split_bits_x2_eq s hs (.ofList xs)
  obtain ⟨y, hy, hlane⟩ := encode_values_eq s hs kind x (ENCODING_SHIFT_X2 kind) (holds32 _) hsp.lt
  refine ⟨y, by simp [encode_bytes24, hx, hy], ?_⟩
  apply eq_blocks (encG_length (chr kind))
  · simp [hl]
  · intro i hi
    have hi' : i < 32 := by simpa using hi
    rw [Vec.toList_getElem, hlane i hi']
    have hg : ∀ k, k < 24 → ((xs.drop 4).take 24).getD k 0 = xs.getD (4 + k) 0 := by
      intro k hk
      simp only [List.getD_eq_getElem?_getD, List.getElem?_take, List.getElem?_drop, if_pos hk]
    have e0 := hsp.q0 (i / 4)
    have e1 := hsp.q1 (i / 4)
    have e2 := hsp.q2 (i / 4)
    have e3 := hsp.q3 (i / 4)
    have b : ∀ j, j < 8 →
        (shuffle_epi8 (.ofList xs) SPLIT_SHUFFLE : V256).lane (4 * j) = xs.getD (4 + (3 * j + 1)) 0 ∧
        (shuffle_epi8 (.ofList xs) SPLIT_SHUFFLE : V256).lane (4 * j + 1) = xs.getD (4 + (3 * j + 0)) 0 ∧
        (shuffle_epi8 (.ofList xs) SPLIT_SHUFFLE : V256).lane (4 * j + 2) = xs.getD (4 + (3 * j + 2)) 0 ∧
        (shuffle_epi8 (.ofList xs) SPLIT_SHUFFLE : V256).lane (4 * j + 3) = xs.getD (4 + (3 * j + 1)) 0 := by
      intro j hj
      interval_cases j <;> simp [shuffle_lane, SPLIT_SHUFFLE]
    obtain ⟨b0, b1, b2, b3⟩ := b (i / 4) (by omega)
    rw [b1] at e0; rw [b1, b0] at e1; rw [b3, b2] at e2; rw [b2] at e3
    simp only [encG, hg _ (by omega : 3 * (i / 4) + 0 < 24), hg _ (by omega : 3 * (i / 4) + 1 < 24), hg _ (by omega : 3 * (i / 4) + 2 < 24)]
    rcases (by omega : i = 4 * (i / 4) ∨ i = 4 * (i / 4) + 1 ∨ i = 4 * (i / 4) + 2 ∨ i = 4 * (i / 4) + 3) with e | e | e | e
    · rw [show i % 4 = 0 by omega, show x.lane i = x.lane (4 * (i / 4)) by rw [← e], e0]; rfl
    · rw [show i % 4 = 1 by omega, show x.lane i = x.lane (4 * (i / 4) + 1) by rw [← e], e1]; rfl
    · rw [show i % 4 = 2 by omega, show x.lane i = x.lane (4 * (i / 4) + 2) by rw [← e], e2]; rfl
    · rw [show i % 4 = 3 by omega, show x.lane i = x.lane (4 * (i / 4) + 3) by rw [← e], e3]; rfl

theorem encode_bytes12_spec (s : Isa) (hs : s ≠ .sse2) (kind : Kind) (xs : List Byte) (hl : xs.length = 16) :
    ∃ y, encode_bytes12 s (.ofList xs) (ENCODING_SHIFT kind) = some y ∧
      y.toList = blocks 3 (encG (chr kind)) (xs.take 12) := by
  obtain ⟨x, hx, hsp⟩ := split_bits_x1_eq s hs (.ofList xs)
  obtain ⟨y, hy, hlane⟩ := encode_values_eq s hs kind x (ENCODING_SHIFT kind) (holds16 _) hsp.lt
  refine ⟨y, by simp [encode_bytes12, hx, hy], ?_⟩
  apply eq_blocks (encG_length (chr kind))
  · simp [hl]
  · intro i hi
    have hi' : i < 16 := by simpa using hi
    rw [Vec.toList_getElem, hlane i hi']
    have hg : ∀ k, k < 12 → (xs.take 12).getD k 0 = xs.getD k 0 := by
      intro k hk
      simp only [List.getD_eq_getElem?_getD, List.getElem?_take, if_pos hk]
    have e0 := hsp.q0 (i / 4)
    have e1 := hsp.q1 (i / 4)
    have e2 := hsp.q2 (i / 4)
    have e3 := hsp.q3 (i / 4)
    have b : ∀ j, j < 4 →
        (shuffle_epi8 (.ofList xs) SPLIT_SHUFFLE.hi : V128).lane (4 * j) = xs.getD (3 * j + 1) 0 ∧
        (shuffle_epi8 (.ofList xs) SPLIT_SHUFFLE.hi : V128).lane (4 * j + 1) = xs.getD (3 * j + 0) 0 ∧
        (shuffle_epi8 (.ofList xs) SPLIT_SHUFFLE.hi : V128).lane (4 * j + 2) = xs.getD (3 * j + 2) 0 ∧
        (shuffle_epi8 (.ofList xs) SPLIT_SHUFFLE.hi : V128).lane (4 * j + 3) = xs.getD (3 * j + 1) 0 := by
      intro j hj
      interval_cases j <;> simp [shuffle_lane, SPLIT_SHUFFLE]
    obtain ⟨b0, b1, b2, b3⟩ := b (i / 4) (by omega)
    rw [b1] at e0; rw [b1, b0] at e1; rw [b3, b2] at e2; rw [b2] at e3
    simp only [encG, hg _ (by omega : 3 * (i / 4) + 0 < 12), hg _ (by omega : 3 * (i / 4) + 1 < 12), hg _ (by omega : 3 * (i / 4) + 2 < 12)]
    rcases (by omega : i = 4 * (i / 4) ∨ i = 4 * (i / 4) + 1 ∨ i = 4 * (i / 4) + 2 ∨ i = 4 * (i / 4) + 3) with e | e | e | e
    · rw [show i % 4 = 0 by omega, show x.lane i = x.lane (4 * (i / 4)) by rw [← e], e0]; rfl
    · rw [show i % 4 = 1 by omega, show x.lane i = x.lane (4 * (i / 4) + 1) by rw [← e], e1]; rfl
    · rw [show i % 4 = 2 by omega, show x.lane i = x.lane (4 * (i / 4) + 2) by rw [← e], e2]; rfl
    · rw [show i % 4 = 3 by omega, show x.lane i = x.lane (4 * (i / 4) + 3) by rw [← e], e3]; rfl

/-! ### Decoding -/

/-- The low three bytes of each 32-bit group are the merged values. -/
def Merged {n} (x y : Vec n) : Prop := ∀ j, (x.lane (4 * j)).toNat < 64 → (x.lane (4 * j + 1)).toNat < 64 →
  (x.lane (4 * j + 2)).toNat < 64 → (x.lane (4 * j + 3)).toNat < 64 →
  (y.lane (4 * j)).toNat = (x.lane (4 * j + 2)).toNat % 4 * 64 + (x.lane (4 * j + 3)).toNat ∧
  (y.lane (4 * j + 1)).toNat = (x.lane (4 * j + 1)).toNat % 16 * 16 + (x.lane (4 * j + 2)).toNat / 4 ∧
  (y.lane (4 * j + 2)).toNat = (x.lane (4 * j)).toNat * 4 + (x.lane (4 * j + 1)).toNat / 16

theorem set16_lane0 {n} (x j) : (set1_16 x : Vec n).lane (2 * j) = byteOf x 0 := by
  rw [set1_16, of16_lane, show 2 * j % 2 = 0 by omega]
theorem set16_lane1 {n} (x j) : (set1_16 x : Vec n).lane (2 * j + 1) = byteOf x 1 := by
  rw [set1_16, of16_lane, show (2 * j + 1) % 2 = 1 by omega]

theorem toInt_small {w} (x : BitVec w) (h : 2 * x.toNat < 2 ^ w) : x.toInt = x.toNat := by
  rw [BitVec.toInt_eq_toNat_cond, if_pos h]

theorem mergeA_spec {n} (x : Vec n) : Merged x (madd16 (maddubs x (set1_16 0x0140#16)) (set1_32 0x00011000#32)) := by
  intro j h0 h1 h2 h3
  have key : ∀ k a b, a < 64 → b < 64 → (x.lane (2 * k)).toNat = a → (x.lane (2 * k + 1)).toNat = b →
      ((maddubs x (set1_16 0x0140#16)).get16 k).toNat = a * 64 + b := by
    intro k a b ha hb ea eb
    simp only [maddubs, get16_of16, set16_lane0, set16_lane1]
    rw [show (byteOf 0x0140#16 0).toInt = 64 from rfl, show (byteOf 0x0140#16 1).toInt = 1 from rfl, ea, eb, satI16,
      show max (-32768) (min 32767 ((a : Int) * 64 + b * 1)) = ((a * 64 + b : Nat) : Int) by omega, BitVec.ofInt_natCast, BitVec.toNat_ofNat]
    omega
  have k0 := key (2 * j) _ _ h0 h1 (by rw [show 2 * (2 * j) = 4 * j by omega]) (by rw [show 2 * (2 * j) = 4 * j by omega])
  have k1 := key (2 * j + 1) _ _ h2 h3 (by rw [show 2 * (2 * j + 1) = 4 * j + 2 by omega]) (by rw [show 2 * (2 * j + 1) = 4 * j + 2 by omega])
  simp only [madd16, of32_lane0, of32_lane1, of32_lane2]
  rw [show (set1_32 0x00011000#32 : Vec n).get16 (2 * j) = 0x1000#16 by
      apply BitVec.eq_of_toNat_eq; rw [get16_lo, set32_lane0, set32_lane1]; rfl,
    show (set1_32 0x00011000#32 : Vec n).get16 (2 * j + 1) = 0x0001#16 by
      apply BitVec.eq_of_toNat_eq; rw [get16_hi, set32_lane2, set32_lane3]; rfl,
    toInt_small ((maddubs x (set1_16 0x0140#16)).get16 (2 * j)) (by rw [k0]; omega),
    toInt_small ((maddubs x (set1_16 0x0140#16)).get16 (2 * j + 1)) (by rw [k1]; omega), k0, k1,
    show (0x1000#16).toInt = 4096 from rfl, show (0x0001#16).toInt = 1 from rfl]
  generalize (x.lane (4 * j)).toNat = a at *
  generalize (x.lane (4 * j + 1)).toNat = b at *
  generalize (x.lane (4 * j + 2)).toNat = c at *
  generalize (x.lane (4 * j + 3)).toNat = d at *
  rw [show (((a * 64 + b : Nat) : Int) * 4096 + ((c * 64 + d : Nat) : Int) * 1) = (((a * 64 + b) * 4096 + (c * 64 + d) : Nat) : Int) by omega,
    BitVec.ofInt_natCast, BitVec.toNat_ofNat]
  refine ⟨?_, ?_, ?_⟩ <;> omega

/-- The NEON and WASM formula. -/
def mergeB {n} (x : Vec n) : Vec n :=
  let x1 := Intrin.and x (set1_32 0x003f003f#32)
  let x2 := Intrin.and x (set1_32 0x3f003f00#32)
  Intrin.and (Intrin.or (Intrin.or (shl32 18 x1) (shr32 10 x1)) (Intrin.or (shl32 4 x2) (shr32 24 x2))) (set1_32 0x00ffffff#32)

theorem mergeB_spec {n} (x : Vec n) : Merged x (mergeB x) := by
  intro j h0 h1 h2 h3
  have e1 : ((Intrin.and x (set1_32 0x003f003f#32)).get32 j).toNat = (x.lane (4 * j)).toNat + 65536 * (x.lane (4 * j + 2)).toNat := by
    rw [get32_toNat]
    simp only [and_lane, set32_lane0, set32_lane1, set32_lane2, set32_lane3]
    rw [show byteOf 0x003f003f#32 0 = 0x3f#8 from rfl, show byteOf 0x003f003f#32 1 = 0x00#8 from rfl,
      show byteOf 0x003f003f#32 2 = 0x3f#8 from rfl, show byteOf 0x003f003f#32 3 = 0x00#8 from rfl]
    simp only [mask_3f, mask_00]
    omega
  have e2 : ((Intrin.and x (set1_32 0x3f003f00#32)).get32 j).toNat = 256 * (x.lane (4 * j + 1)).toNat + 16777216 * (x.lane (4 * j + 3)).toNat := by
    rw [get32_toNat]
    simp only [and_lane, set32_lane0, set32_lane1, set32_lane2, set32_lane3]
    rw [show byteOf 0x3f003f00#32 0 = 0x00#8 from rfl, show byteOf 0x3f003f00#32 1 = 0x3f#8 from rfl,
      show byteOf 0x3f003f00#32 2 = 0x00#8 from rfl, show byteOf 0x3f003f00#32 3 = 0x3f#8 from rfl]
    simp only [mask_3f, mask_00]
    omega
  simp only [mergeB, and_lane, or_lane, set32_lane0, set32_lane1, set32_lane2]
  rw [show byteOf 0x00ffffff#32 0 = 0xff#8 from rfl, show byteOf 0x00ffffff#32 1 = 0xff#8 from rfl,
    show byteOf 0x00ffffff#32 2 = 0xff#8 from rfl]
  simp only [mask_ff]
  have s1 : ∀ {k} (v : Vec n), ((shl32 k v).lane (4 * j)).toNat = (v.get32 j).toNat * 2 ^ k % 4294967296 % 256 ∧
      ((shl32 k v).lane (4 * j + 1)).toNat = (v.get32 j).toNat * 2 ^ k % 4294967296 / 256 % 256 ∧
      ((shl32 k v).lane (4 * j + 2)).toNat = (v.get32 j).toNat * 2 ^ k % 4294967296 / 65536 % 256 := by
    intro k v
    simp only [shl32, of32_lane0, of32_lane1, of32_lane2, BitVec.toNat_shiftLeft, Nat.shiftLeft_eq, Nat.reducePow]
    exact ⟨trivial, trivial, trivial⟩
  have s2 : ∀ {k} (v : Vec n), ((shr32 k v).lane (4 * j)).toNat = (v.get32 j).toNat / 2 ^ k % 256 ∧
      ((shr32 k v).lane (4 * j + 1)).toNat = (v.get32 j).toNat / 2 ^ k / 256 % 256 ∧
      ((shr32 k v).lane (4 * j + 2)).toNat = (v.get32 j).toNat / 2 ^ k / 65536 % 256 := by
    intro k v
    simp only [shr32, of32_lane0, of32_lane1, of32_lane2, BitVec.toNat_ushiftRight, Nat.shiftRight_eq_div_pow]
    exact ⟨trivial, trivial, trivial⟩
  obtain ⟨a0, a1, a2⟩ := s1 (k := 18) (Intrin.and x (set1_32 0x003f003f#32))
  obtain ⟨b0, b1, b2⟩ := s2 (k := 10) (Intrin.and x (set1_32 0x003f003f#32))
  obtain ⟨c0, c1, c2⟩ := s1 (k := 4) (Intrin.and x (set1_32 0x3f003f00#32))
  obtain ⟨d0, d1, d2⟩ := s2 (k := 24) (Intrin.and x (set1_32 0x3f003f00#32))
  rw [e1] at a0 a1 a2 b0 b1 b2
  rw [e2] at c0 c1 c2 d0 d1 d2
  generalize shl32 18 (Intrin.and x (set1_32 0x003f003f#32)) = A at *
  generalize shr32 10 (Intrin.and x (set1_32 0x003f003f#32)) = B at *
  generalize shl32 4 (Intrin.and x (set1_32 0x3f003f00#32)) = C at *
  generalize shr32 24 (Intrin.and x (set1_32 0x3f003f00#32)) = D at *
  simp only [Nat.reducePow] at a0 a1 a2 b0 b1 b2 c0 c1 c2 d0 d1 d2
  clear s1 s2 e1 e2
  generalize (x.lane (4 * j)).toNat = a at *
  generalize (x.lane (4 * j + 1)).toNat = b at *
  generalize (x.lane (4 * j + 2)).toNat = c at *
  generalize (x.lane (4 * j + 3)).toNat = d at *
  refine ⟨?_, ?_, ?_⟩
  · have z1 := zero_or_toNat (A.lane (4 * j)) (B.lane (4 * j)) (by omega)
    have z2 := zero_or_toNat (C.lane (4 * j)) (D.lane (4 * j)) (by omega)
    rw [or_add (c := c % 4) (k := 6) _ _ (by omega) (by omega)]; omega
  · have z1 := zero_or_toNat (A.lane (4 * j + 1)) (B.lane (4 * j + 1)) (by omega)
    have z2 := or_zero_toNat (C.lane (4 * j + 1)) (D.lane (4 * j + 1)) (by omega)
    rw [BitVec.or_comm, or_add (c := b % 16) (k := 4) _ _ (by omega) (by omega)]; omega
  · have z1 := or_zero_toNat (A.lane (4 * j + 2)) (B.lane (4 * j + 2)) (by omega)
    have z2 := or_zero_toNat (C.lane (4 * j + 2)) (D.lane (4 * j + 2)) (by omega)
    rw [or_add (c := a) (k := 2) _ _ (by omega) (by omega)]; omega

theorem merge_bits_y_spec (s : Isa) (hs : s ≠ .sse2) (x : V256) : ∃ y, merge_bits_y s x = some y ∧ Merged x y := by
  unfold merge_bits_y
  rcases isa_cases s hs with ⟨h1, h2⟩ | ⟨h1, h2, h3⟩
  · refine ⟨_, ?_, mergeA_spec x⟩
    simp [h1, i16x16_maddubs_eq h1, i16x16_madd_eq h2]
  · refine ⟨_, ?_, mergeB_spec x⟩
    simp only [Option.bind_eq_bind, Option.bind_some, h1, h3, Bool.false_eq_true, if_false, if_true, u32x8_splat_eq, v256_and_eq,
      u32x8_shr_eq, u32x8_shl_eq, v256_or_eq]
    rfl

theorem alsw_good (kind) : GoodSpec (alsw kind) := by
  cases kind
  · exact StandardAlsw_good
  · exact UrlSafeAlsw_good

theorem alsw_lt (kind) (c : Byte) (h : (alsw kind).decode c ≠ 255#8) : ((alsw kind).decode c).toNat < 64 := by
  cases kind <;> revert c <;> decide +kernel

/-- Result of the kernel that decodes the 32 characters `xs`. -/
def DecRes (kind : Kind) (xs : List Byte) (r : Except Unit V256) : Prop :=
  match r with
  | .ok y => decB (alsw kind).decode 4 decG xs = some (y.lo.toList.take 12 ++ y.hi.toList.take 12)
  | .error _ => decB (alsw kind).decode 4 decG xs = none

theorem decode_ascii32_spec (s : Isa) (hs : s ≠ .sse2) (kind : Kind) (xs : List Byte) (hl : xs.length = 32) :
    ∃ r, decode_ascii32 s (.ofList xs) (ALSW_CHECK_X2 kind) (ALSW_DECODE_X2 kind) = some r ∧ DecRes kind xs r := by
  obtain ⟨c1, c2, he, h⟩ := decode_ascii_xn_spec (alsw_good kind) (check := ALSW_CHECK_X2 kind) (decode := ALSW_DECODE_X2 kind)
    (holds32 _) (holds32 _) (holds32 _) (holds32 _) s hs (.ofList xs)
  obtain ⟨y, hy, hm⟩ := merge_bits_y_spec s hs c2
  have hy2 : merge_bits_x2 s c2 = some (shuffle_epi8 y MERGE_SHUFFLE) := by
    simp only [merge_bits_x2, hy, Option.bind_eq_bind, Option.bind_some]
    exact swzx2 hs y (by decide)
  have hany : (anyLane 32 fun i => (c1.lane i).msb) = anyLane 32 fun i => (alsw kind).decode ((Vec.ofList xs : V256).lane i) == 255#8 :=
    anyLane_congr fun i hi => (h i hi).1
  simp only [decode_ascii32, he, hy2, Option.bind_eq_bind, Option.bind_some, u8x32_highbit_any_eq, hany]
  by_cases hb : (anyLane 32 fun i => (alsw kind).decode ((Vec.ofList xs : V256).lane i) == 255#8) = true
  · rw [hb]
    exact ⟨_, rfl, decB_none_iff.2 ((any_bad _ xs hl).1 hb)⟩
  · have hv : ∀ c ∈ xs, (alsw kind).decode c ≠ 255#8 := fun c hc h => hb ((any_bad _ xs hl).2 ⟨c, hc, h⟩)
    rw [Bool.not_eq_true] at hb
    rw [hb]
    refine ⟨_, rfl, ?_⟩
    show decB (alsw kind).decode 4 decG xs = _
    unfold decB
    rw [if_pos (by rw [List.all_eq_true]; intro c hc; rw [bne_iff_ne]; exact hv c hc)]
    congr 1; symm
    have hc2 : ∀ i, i < 32 → c2.lane i = (xs.map (alsw kind).decode).getD i 0 ∧ (c2.lane i).toNat < 64 := by
      intro i hi
      have hx : i < xs.length := by omega
      have hne : (alsw kind).decode ((Vec.ofList xs : V256).lane i) ≠ 255#8 := by
        rw [Vec.ofList_lane, List.getD_eq_getElem?_getD, List.getElem?_eq_getElem hx]
        exact hv _ (List.getElem_mem hx)
      have e := (h i hi).2 hne
      refine ⟨?_, by rw [e]; exact alsw_lt kind _ hne⟩
      rw [e, Vec.ofList_lane]
      simp [List.getD_eq_getElem?_getD, List.getElem?_eq_getElem hx]
    apply eq_blocks decG_length
    · simp [hl]
    · intro i hi
      have hi' : i < 24 := by simpa using hi
      have hlane : ∀ j, j < 8 → ∀ r, r < 3 → ((shuffle_epi8 y MERGE_SHUFFLE).lo.toList.take 12 ++ (shuffle_epi8 y MERGE_SHUFFLE).hi.toList.take 12)[3 * j + r]? =
          some (y.lane (4 * j + (2 - r))) := by
        intro j hj r hr
        have hm : 3 * j + r < 24 := by omega
        by_cases hlo : 3 * j + r < 12
        · rw [List.getElem?_append_left (by simpa using hlo), List.getElem?_take, if_pos hlo, List.getElem?_eq_getElem (by simp; omega),
            Vec.toList_getElem]
          congr 1
          interval_cases j <;> interval_cases r <;> simp [shuffle_lane, MERGE_SHUFFLE, x2_ofList_lane] <;> omega
        · rw [List.getElem?_append_right (by simp; omega), List.getElem?_take, if_pos (by simp; omega), List.getElem?_eq_getElem (by simp; omega),
            Vec.toList_getElem]
          congr 1
          interval_cases j <;> interval_cases r <;> simp [shuffle_lane, MERGE_SHUFFLE, x2_ofList_lane] <;> omega
      obtain ⟨m0, m1, m2⟩ := hm (i / 3) (hc2 _ (by omega)).2 (hc2 _ (by omega)).2 (hc2 _ (by omega)).2 (hc2 _ (by omega)).2
      rw [(hc2 (4 * (i / 3) + 2) (by omega)).1] at m0 m1
      rw [(hc2 (4 * (i / 3) + 1) (by omega)).1] at m1 m2
      rw [(hc2 (4 * (i / 3)) (by omega)).1] at m2
      rw [(hc2 (4 * (i / 3) + 3) (by omega)).1] at m0
      have hr := hlane (i / 3) (by omega) (i % 3) (by omega)
      rw [show 3 * (i / 3) + i % 3 = i by omega, List.getElem?_eq_getElem hi, Option.some.injEq] at hr
      rw [hr]
      have hlt := fun k => (y.lane k).isLt
      rcases (by omega : i % 3 = 0 ∨ i % 3 = 1 ∨ i % 3 = 2) with e | e | e <;> rw [e]
      · simp only [decG, List.getElem?_cons_zero, Option.some.injEq]
        apply BitVec.eq_of_toNat_eq; rw [BitVec.toNat_ofNat, Nat.add_zero, ← m2]; exact Nat.mod_eq_of_lt (hlt _)
      · simp only [decG, List.getElem?_cons_succ, List.getElem?_cons_zero, Option.some.injEq]
        apply BitVec.eq_of_toNat_eq; rw [BitVec.toNat_ofNat, ← m1]; exact Nat.mod_eq_of_lt (hlt _)
      · simp only [decG, List.getElem?_cons_succ, List.getElem?_cons_zero, Option.some.injEq]
        apply BitVec.eq_of_toNat_eq; rw [BitVec.toNat_ofNat, ← m0]; exact Nat.mod_eq_of_lt (hlt _)

end Simd.Base64
