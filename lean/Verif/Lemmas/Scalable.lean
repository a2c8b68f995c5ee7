import Verif.Lemmas.Mask
/-
The operations of `Scalable` have the same normal forms at both vector widths.
-/
namespace Simd
namespace Vs
open IsaId Intrin

class LawfulScalable (n : Nat) [Scalable n] : Prop where
  and_eq (s : Isa) (a b : Vec n) : Scalable.and s a b = some (Intrin.and a b)
  or_eq (s : Isa) (a b : Vec n) : Scalable.or s a b = some (Intrin.or a b)
  xor_eq (s : Isa) (a b : Vec n) : Scalable.xor s a b = some (Intrin.xor a b)
  andnot_eq (s : Isa) (a b : Vec n) : Scalable.andnot s a b = some (Intrin.bic a b)
  splat8_eq (s : Isa) (x) : Scalable.u8xn_splat s x = some (set1_8 x : Vec n)
  splat32_eq (s : Isa) (x) : Scalable.u32xn_splat s x = some (set1_32 x : Vec n)
  add_eq (s : Isa) (a b : Vec n) : Scalable.u8xn_add s a b = some (add8 a b)
  sub_eq (s : Isa) (a b : Vec n) : Scalable.u8xn_sub s a b = some (sub8 a b)
  subs_eq (s : Isa) (a b : Vec n) : Scalable.u8xn_sub_sat s a b = some (subs_u8 a b)
  sub32_eq (s : Isa) (a b : Vec n) : Scalable.u32xn_sub s a b = some (sub32 a b)
  adds_eq (s : Isa) (a b : Vec n) : Scalable.i8xn_add_sat s a b = some (adds_i8 a b)
  eq_eq (s : Isa) (a b : Vec n) : Scalable.u8xn_eq s a b = some (eq8 a b)
  lt_eq (s : Isa) (a b : Vec n) : Scalable.i8xn_lt s a b = some (lt_i8 a b)
  shl16_eq (s : Isa) (k) (a : Vec n) : Scalable.u16xn_shl s k a = some (shl16 k a)
  shr16_eq (s : Isa) (k) (a : Vec n) : Scalable.u16xn_shr s k a = some (shr16 k a)
  shr32_eq (s : Isa) (k) (a : Vec n) : Scalable.u32xn_shr s k a = some (shr32 k a)
  avgr_eq (s : Isa) (a b : Vec n) : Scalable.u8xn_avgr s a b = some (avg_u8 a b)
  swizzle_eq (s : Isa) (hs : s ≠ .sse2) (a b : Vec n) (hb : ∀ i, (b.lane i).toNat < 16 ∨ 128 ≤ (b.lane i).toNat) :
    Scalable.u8x16xn_swizzle s a b = some (shuffle_epi8 a b)
  swizzle_ssse3 (s : Isa) (hs : s.is SSSE3 = true) (a b : Vec n) :
    Scalable.u8x16xn_swizzle s a b = some (shuffle_epi8 a b)
  highbit_eq (s : Isa) (a : Vec n) : Scalable.u8xn_highbit_any s a = some (anyLane n fun i => (a.lane i).msb)
  all_eq (s : Isa) (a : Vec n) (h : IsMask a) : Scalable.mask8xn_all s a = some (allLane n fun i => a.lane i != 0#8)
  any_eq (s : Isa) (a : Vec n) (h : IsMask a) : Scalable.mask8xn_any s a = some (anyLane n fun i => a.lane i != 0#8)
  zero_eq (s : Isa) (hs : s ≠ .sse2 ∧ s ≠ .ssse3) (a : Vec n) :
    Scalable.all_zero s a = some (allLane n fun i => a.lane i == 0#8)

instance : LawfulScalable 16 where
  and_eq := v128_and_eq
  or_eq := v128_or_eq
  xor_eq := v128_xor_eq
  andnot_eq := v128_andnot_eq
  splat8_eq := u8x16_splat_eq
  splat32_eq := u32x4_splat_eq
  add_eq := u8x16_add_eq
  sub_eq := u8x16_sub_eq
  subs_eq := u8x16_sub_sat_eq
  sub32_eq := u32x4_sub_eq
  adds_eq := i8x16_add_sat_eq
  eq_eq := u8x16_eq_eq
  lt_eq := i8x16_lt_eq
  shl16_eq := u16x8_shl_eq
  shr16_eq := u16x8_shr_eq
  shr32_eq := u32x4_shr_eq
  avgr_eq := u8x16_avgr_eq
  swizzle_eq := u8x16_swizzle_eq
  swizzle_ssse3 s hs a b := by simp [Scalable.u8x16xn_swizzle, u8x16_swizzle, hs]
  highbit_eq := u8x16_highbit_any_eq
  all_eq := mask8x16_all_eq
  any_eq := mask8x16_any_eq
  zero_eq := v128_all_zero_eq

instance : LawfulScalable 32 where
  and_eq := v256_and_eq
  or_eq := v256_or_eq
  xor_eq := v256_xor_eq
  andnot_eq := v256_andnot_eq
  splat8_eq := u8x32_splat_eq
  splat32_eq := u32x8_splat_eq
  add_eq := u8x32_add_eq
  sub_eq := u8x32_sub_eq
  subs_eq := u8x32_sub_sat_eq
  sub32_eq := u32x8_sub_eq
  adds_eq := i8x32_add_sat_eq
  eq_eq := u8x32_eq_eq
  lt_eq := i8x32_lt_eq
  shl16_eq := u16x16_shl_eq
  shr16_eq := u16x16_shr_eq
  shr32_eq := u32x8_shr_eq
  avgr_eq := u8x32_avgr_eq
  swizzle_eq := u8x16x2_swizzle_eq
  swizzle_ssse3 s hs a b := by
    have h : ∀ a b, u8x16_swizzle s a b = some (shuffle_epi8 a b) := by simp [u8x16_swizzle, hs]
    simp [Scalable.u8x16xn_swizzle, u8x16x2_swizzle, vop2_eq h, join_shuffle]
  highbit_eq := u8x32_highbit_any_eq
  all_eq := mask8x32_all_eq
  any_eq := mask8x32_any_eq
  zero_eq := v256_all_zero_eq

attribute [simp] LawfulScalable.and_eq LawfulScalable.or_eq LawfulScalable.xor_eq LawfulScalable.andnot_eq
  LawfulScalable.splat8_eq LawfulScalable.splat32_eq LawfulScalable.add_eq LawfulScalable.sub_eq
  LawfulScalable.subs_eq LawfulScalable.sub32_eq LawfulScalable.adds_eq LawfulScalable.eq_eq LawfulScalable.lt_eq LawfulScalable.shl16_eq
  LawfulScalable.shr16_eq LawfulScalable.shr32_eq LawfulScalable.avgr_eq LawfulScalable.highbit_eq

theorem and_8f (x : Byte) : ((x &&& 0x8f#8).toNat < 16 ∨ 128 ≤ (x &&& 0x8f#8).toNat) ∧
    ((x &&& 0x8f#8).toNat < 128 ↔ x.toNat < 128) ∧ (x &&& 0x8f#8).toNat % 16 = x.toNat % 16 := by
  revert x; decide +kernel

/-- `u8x16xn_lookup` is the 16-entry table lookup `pshufb` on each supported instruction set. -/
theorem lookup_eq {n} [Scalable n] [LawfulScalable n] (s : Isa) (hs : s ≠ .sse2) (lut x : Vec n) :
    u8x16xn_lookup s lut x = some (shuffle_epi8 lut x) := by
  have h : shuffle_epi8 lut (Intrin.and x (set1_8 143#8)) = shuffle_epi8 lut x := by
    apply Vec.ext; intro i
    simp only [shuffle_lane, Intrin.and, map8_lane, set1_8_lane]
    obtain ⟨_, h2, h3⟩ := and_8f (x.lane i)
    rw [h3]; simp only [h2]
  unfold u8x16xn_lookup
  by_cases h3 : s.is SSSE3 = true
  · rw [if_pos h3, LawfulScalable.swizzle_ssse3 s h3]
  · have h4 : (s.is NEON || s.is WASM128) = true := by
      cases s <;> simp [Isa.is] at hs h3 ⊢
    rw [if_neg h3, if_pos h4]
    simp only [LawfulScalable.splat8_eq, LawfulScalable.and_eq, Option.bind_eq_bind, Option.bind_some]
    rw [LawfulScalable.swizzle_eq s hs _ _ (fun i => (and_8f (x.lane i)).1)]
    rw [← h]; rfl

end Vs
end Simd
