import Verif.Model.Scalable
import Verif.Props.Vsimd
import Verif.Props.VsimdMove
import Verif.Props.VsimdMask
/-
C73: the width-generic interface `Scalable<V>` means the same for `V128` and `V256`.
-/
namespace Simd
namespace Vsimd
open Intrin Vs

/-- The operation returns, and its result satisfies `Q`. -/
def Gives {n : Nat} (o : Option (Vec n)) (Q : List Byte → Prop) : Prop := ∃ r, o = some r ∧ Q r.toList
/-- The test returns, and its answer is `Q`. -/
def Tells (o : Option Bool) (Q : Prop) : Prop := ∃ b, o = some b ∧ (b = true ↔ Q)

/-- The contract of `Scalable<V>` on `n`-byte vectors: what each method computes on arrays of `n` bytes, and on which instruction sets. -/
structure Contract (n : Nat) [Scalable n] [ScalableRest n] (s : Isa) : Prop where
  and (a b : Vec n) : Gives (Scalable.and s a b) (Spec.Bits (fun x y => x && y) a.toList b.toList)
  or (a b : Vec n) : Gives (Scalable.or s a b) (Spec.Bits (fun x y => x || y) a.toList b.toList)
  xor (a b : Vec n) : Gives (Scalable.xor s a b) (Spec.Bits (fun x y => x != y) a.toList b.toList)
  andnot (a b : Vec n) : Gives (Scalable.andnot s a b) (Spec.Bits (fun x y => x && !y) a.toList b.toList)
  u8_splat (x : Byte) : Gives (n := n) (Scalable.u8xn_splat s x) (fun r => ∀ j, j < n → Spec.bits 1 r j = x.toNat)
  i8_splat (x : Byte) : Gives (n := n) (ScalableRest.i8xn_splat s x) (fun r => ∀ j, j < n → Spec.bits 1 r j = x.toNat)
  u32_splat (x : BitVec 32) : Gives (n := n) (Scalable.u32xn_splat s x) (fun r => ∀ j, j < n / 4 → Spec.bits 4 r j = x.toNat)
  u8_add (a b : Vec n) : Gives (Scalable.u8xn_add s a b) (Meets .add Spec.u8 a.toList b.toList)
  u8_sub (a b : Vec n) : Gives (Scalable.u8xn_sub s a b) (Meets .sub Spec.u8 a.toList b.toList)
  u32_sub (a b : Vec n) : Gives (Scalable.u32xn_sub s a b) (Meets .sub Spec.u32 a.toList b.toList)
  u8_add_sat (a b : Vec n) : Gives (ScalableRest.u8xn_add_sat s a b) (Meets .addSat Spec.u8 a.toList b.toList)
  i8_add_sat (a b : Vec n) : Gives (Scalable.i8xn_add_sat s a b) (Meets .addSat Spec.i8 a.toList b.toList)
  u8_sub_sat (a b : Vec n) : Gives (Scalable.u8xn_sub_sat s a b) (Meets .subSat Spec.u8 a.toList b.toList)
  u8_eq (a b : Vec n) : Gives (Scalable.u8xn_eq s a b) (Meets .eq Spec.u8 a.toList b.toList)
  i8_lt (a b : Vec n) : Gives (Scalable.i8xn_lt s a b) (Meets .lt Spec.i8 a.toList b.toList)
  u32_lt (a b : Vec n) : Gives (Scalable.u32xn_lt s a b) (Meets .lt Spec.u32 a.toList b.toList)
  u32_max (hs : s ≠ .sse2 ∧ s ≠ .ssse3) (a b : Vec n) : Gives (Scalable.u32xn_max s a b) (Meets .max Spec.u32 a.toList b.toList)
  u16_shl (k : Nat) (hk : k < 16) (a : Vec n) : Gives (Scalable.u16xn_shl s k a) (Spec.Map Spec.u16 (fun x => x * 2 ^ k % 65536) a.toList)
  u16_shr (k : Nat) (hk : k < 16) (a : Vec n) : Gives (Scalable.u16xn_shr s k a) (Spec.Map Spec.u16 (fun x => x / 2 ^ k) a.toList)
  u32_shr (k : Nat) (hk : k < 32) (a : Vec n) : Gives (Scalable.u32xn_shr s k a) (Spec.Map Spec.u32 (fun x => x / 2 ^ k) a.toList)
  u8_avgr (a b : Vec n) : Gives (Scalable.u8xn_avgr s a b) (Spec.Zip Spec.u8 (fun x y => (x + y + 1) / 2) a.toList b.toList)
  /-- every 16-byte block is a table of its own -/
  swizzle (hs : s ≠ .sse2) (a b : Vec n) : Gives (Scalable.u8x16xn_swizzle s a b) (fun r => ∀ i, i < n →
    Looked (s.is .SSSE3) ((a.toList.drop (i / 16 * 16)).take 16) (b.toList.getD i 0) (r.getD i 0))
  all_zero (hs : s ≠ .sse2 ∧ s ≠ .ssse3) (a : Vec n) : Tells (Scalable.all_zero s a) (∀ x ∈ a.toList, x = 0#8)
  mask_all (a : Vec n) (h : MaskBytes a.toList) : Tells (Scalable.mask8xn_all s a) (∀ x ∈ a.toList, x = 0xff#8)
  mask_any (a : Vec n) (h : MaskBytes a.toList) : Tells (Scalable.mask8xn_any s a) (∃ x ∈ a.toList, x = 0xff#8)
  highbit_all (a : Vec n) : Tells (ScalableRest.u8xn_highbit_all s a) (∀ x ∈ a.toList, 128 ≤ x.toNat)
  highbit_any (a : Vec n) : Tells (Scalable.u8xn_highbit_any s a) (∃ x ∈ a.toList, 128 ≤ x.toNat)
  u16_bswap (hs : s ≠ .sse2 ∧ s ≠ .ssse3) (a : Vec n) : Gives (ScalableRest.u16xn_bswap s a) (Spec.Reversed 2 a.toList)
  u32_bswap (hs : s ≠ .sse2 ∧ s ≠ .ssse3) (a : Vec n) : Gives (ScalableRest.u32xn_bswap s a) (Spec.Reversed 4 a.toList)
  u64_bswap (hs : s ≠ .sse2 ∧ s ≠ .ssse3) (a : Vec n) : Gives (ScalableRest.u64xn_bswap s a) (Spec.Reversed 8 a.toList)

theorem gives128 {op : Op2} {s : Isa} {t : Elem} {a b : V128} {o : Option V128} (h : o = op.run128 s t a b) (hr : (op.run128 s t a b).isSome = true) :
    Gives o (Meets op t.ty a.toList b.toList) := by
  obtain ⟨r, hr⟩ := Option.isSome_iff_exists.1 hr
  exact ⟨r, h.trans hr, C51_binary128 op s t a b r hr⟩
theorem gives256 {op : Op2} {s : Isa} {t : Elem} {a b : V256} {o : Option V256} (h : o = op.run256 s t a b) (hr : (op.run256 s t a b).isSome = true) :
    Gives o (Meets op t.ty a.toList b.toList) := by
  obtain ⟨r, hr⟩ := Option.isSome_iff_exists.1 hr
  exact ⟨r, h.trans hr, C51_binary256 op s t a b r hr⟩
theorem rev128 {t : BswapM} {s : Isa} {a : V128} (hr : (t.run128 s a).isSome = true) : Gives (t.run128 s a) (Spec.Reversed t.width a.toList) := by
  obtain ⟨r, hr⟩ := Option.isSome_iff_exists.1 hr
  exact ⟨r, hr, C52_bswap128 t s a r hr⟩
theorem rev256 {t : BswapM} {s : Isa} {a : V256} (hr : (t.run256 s a).isSome = true) : Gives (t.run256 s a) (Spec.Reversed t.width a.toList) := by
  obtain ⟨r, hr⟩ := Option.isSome_iff_exists.1 hr
  exact ⟨r, hr, C52_bswap256 t s a r hr⟩

/-- C73: `Scalable<V128>` meets the contract on every instruction set. -/
theorem C73_128 (s : Isa) : Contract 16 s where
  and a b := ((C51_bitwise s).1 a b).1
  or a b := ((C51_bitwise s).1 a b).2.1
  xor a b := ((C51_bitwise s).1 a b).2.2.1
  andnot a b := ((C51_bitwise s).1 a b).2.2.2
  u8_splat x := by
    obtain ⟨r, h, hr⟩ := C51_splat128 s .u8 x
    exact ⟨r, ((C51_splat_methods s).1 x).trans h, hr⟩
  i8_splat x := C51_splat128 s .i8 x
  u32_splat x := by
    obtain ⟨r, h, hr⟩ := C51_splat128 s .u32 x
    exact ⟨r, ((C51_splat_methods s).2.2.1 x).trans h, hr⟩
  u8_add a b := gives128 (C51_methods128 s a b).1.1 (by cases s <;> rfl)
  u8_sub a b := gives128 (C51_methods128 s a b).2.1.1 (by cases s <;> rfl)
  u32_sub a b := gives128 (C51_methods128 s a b).2.1.2.2.1 (by cases s <;> rfl)
  u8_add_sat a b := gives128 (op := .addSat) (t := .u8) rfl (by cases s <;> rfl)
  i8_add_sat a b := gives128 (C51_methods128 s a b).2.2.1.1 (by cases s <;> rfl)
  u8_sub_sat a b := gives128 (C51_methods128 s a b).2.2.2.1.1 (by cases s <;> rfl)
  u8_eq a b := gives128 (C51_methods128 s a b).2.2.2.2.1.1 (by cases s <;> rfl)
  i8_lt a b := gives128 (C51_methods128 s a b).2.2.2.2.2.1.2.2.2.1 (by cases s <;> rfl)
  u32_lt a b := gives128 (C51_methods128 s a b).2.2.2.2.2.1.2.2.1 (by cases s <;> rfl)
  u32_max hs a b := gives128 (C51_methods128 s a b).2.2.2.2.2.2.1.2.2.1 (by cases s <;> first | rfl | exact absurd rfl hs.1 | exact absurd rfl hs.2)
  u16_shl k hk a := (C51_shift16 s k hk).1 a
  u16_shr k hk a := (C51_shift16 s k hk).2.1 a
  u32_shr k hk a := (C51_shift32 s k hk).2.1 a
  u8_avgr a b := (C51_avgr s).1 a b
  swizzle hs a b := by
    obtain ⟨r, h⟩ := Option.isSome_iff_exists.1 (show (u8x16_swizzle s a b).isSome = true by cases s <;> first | rfl | exact absurd rfl hs)
    refine ⟨r, h, fun i hi => ?_⟩
    have := C52_swizzle128 s a b r h i hi
    rw [toList_getD _ hi, toList_getD _ hi, show i / 16 * 16 = 0 by omega, List.drop_zero, List.take_of_length_le (by simp)]
    exact this
  all_zero hs a := (C53_all_zero s hs a (.ofList [])).1
  mask_all a h := (C53_mask128 s a h).1
  mask_any a h := (C53_mask128 s a h).2
  highbit_all a := (C53_highbit128 s a).1
  highbit_any a := (C53_highbit128 s a).2
  u16_bswap hs a := rev128 (t := .b16) (by cases s <;> first | rfl | exact absurd rfl hs.1 | exact absurd rfl hs.2)
  u32_bswap hs a := rev128 (t := .b32) (by cases s <;> first | rfl | exact absurd rfl hs.1 | exact absurd rfl hs.2)
  u64_bswap hs a := rev128 (t := .b64) (by cases s <;> first | rfl | exact absurd rfl hs.1 | exact absurd rfl hs.2)

/-- C73: `Scalable<V256>` meets the same contract. -/
theorem C73_256 (s : Isa) : Contract 32 s where
  and a b := ((C51_bitwise s).2 a b).1
  or a b := ((C51_bitwise s).2 a b).2.1
  xor a b := ((C51_bitwise s).2 a b).2.2.1
  andnot a b := ((C51_bitwise s).2 a b).2.2.2
  u8_splat x := by
    obtain ⟨r, h, hr⟩ := C51_splat256 s .u8 x
    exact ⟨r, ((C51_splat_methods s).2.2.2.2.2.2.2.2.1 x).trans h, hr⟩
  i8_splat x := C51_splat256 s .i8 x
  u32_splat x := by
    obtain ⟨r, h, hr⟩ := C51_splat256 s .u32 x
    exact ⟨r, ((C51_splat_methods s).2.2.2.2.2.2.2.2.2.2.1 x).trans h, hr⟩
  u8_add a b := gives256 (C51_methods256 s a b).1.1 (by cases s <;> rfl)
  u8_sub a b := gives256 (C51_methods256 s a b).2.1.1 (by cases s <;> rfl)
  u32_sub a b := gives256 (C51_methods256 s a b).2.1.2.2.1 (by cases s <;> rfl)
  u8_add_sat a b := gives256 (op := .addSat) (t := .u8) rfl (by cases s <;> rfl)
  i8_add_sat a b := gives256 (C51_methods256 s a b).2.2.1.1 (by cases s <;> rfl)
  u8_sub_sat a b := gives256 (C51_methods256 s a b).2.2.2.1.1 (by cases s <;> rfl)
  u8_eq a b := gives256 (C51_methods256 s a b).2.2.2.2.1.1 (by cases s <;> rfl)
  i8_lt a b := gives256 (C51_methods256 s a b).2.2.2.2.2.1.2.2.2.1 (by cases s <;> rfl)
  u32_lt a b := gives256 (C51_methods256 s a b).2.2.2.2.2.1.2.2.1 (by cases s <;> rfl)
  u32_max hs a b := gives256 (C51_methods256 s a b).2.2.2.2.2.2.1.2.2.1 (by cases s <;> first | rfl | exact absurd rfl hs.1 | exact absurd rfl hs.2)
  u16_shl k hk a := (C51_shift16 s k hk).2.2.1 a
  u16_shr k hk a := (C51_shift16 s k hk).2.2.2 a
  u32_shr k hk a := (C51_shift32 s k hk).2.2.2 a
  u8_avgr a b := (C51_avgr s).2 a b
  swizzle hs a b := by
    obtain ⟨r, h⟩ := Option.isSome_iff_exists.1 (show (u8x16x2_swizzle s a b).isSome = true by cases s <;> first | rfl | exact absurd rfl hs)
    refine ⟨r, h, fun i hi => ?_⟩
    rw [toList_getD _ hi, toList_getD _ hi, toList_split a]
    by_cases h16 : i < 16
    · rw [show i / 16 * 16 = 0 by omega, List.drop_zero, List.take_left' (by simp)]
      exact (C52_swizzle256 s a b r h i h16).1
    · rw [show i / 16 * 16 = 16 by omega, List.drop_left' (by simp), List.take_of_length_le (by simp)]
      have := (C52_swizzle256 s a b r h (i - 16) (by omega)).2
      rwa [show 16 + (i - 16) = i by omega] at this
  all_zero hs a := (C53_all_zero s hs (.ofList []) a).2
  mask_all a h := (C53_mask256 s a h).1
  mask_any a h := (C53_mask256 s a h).2
  highbit_all a := (C53_highbit256 s a).1
  highbit_any a := (C53_highbit256 s a).2
  u16_bswap hs a := rev256 (t := .b16) (by cases s <;> first | rfl | exact absurd rfl hs.1 | exact absurd rfl hs.2)
  u32_bswap hs a := rev256 (t := .b32) (by cases s <;> first | rfl | exact absurd rfl hs.1 | exact absurd rfl hs.2)
  u64_bswap hs a := rev256 (t := .b64) (by cases s <;> first | rfl | exact absurd rfl hs.1 | exact absurd rfl hs.2)

/-- C73: on the excluded instruction sets the excluded methods do panic, at both widths. -/
theorem C73_panics (a b : V128) (c d : V256) :
    (Scalable.u8x16xn_swizzle .sse2 a b = none ∧ Scalable.u8x16xn_swizzle .sse2 c d = none) ∧
    ∀ s, s = .sse2 ∨ s = .ssse3 →
      (Scalable.u32xn_max s a b = none ∧ Scalable.all_zero s a = none ∧
       ScalableRest.u16xn_bswap s a = none ∧ ScalableRest.u32xn_bswap s a = none ∧ ScalableRest.u64xn_bswap s a = none) ∧
      (Scalable.u32xn_max s c d = none ∧ Scalable.all_zero s c = none ∧
       ScalableRest.u16xn_bswap s c = none ∧ ScalableRest.u32xn_bswap s c = none ∧ ScalableRest.u64xn_bswap s c = none) := by
  refine ⟨⟨rfl, rfl⟩, fun s hs => ?_⟩
  rcases hs with rfl | rfl <;> exact ⟨⟨rfl, rfl, rfl, rfl, rfl⟩, ⟨rfl, rfl, rfl, rfl, rfl⟩⟩

example : ∃ r, Scalable.u32xn_max (n := 32) .wasm128 (.ofList [1, 2, 3, 0xff]) (.ofList [0xff, 2, 3, 4]) = some r ∧
    r.toList.take 5 = [1, 2, 3, 0xff, 0] := ⟨_, rfl, by decide +kernel⟩
example : MaskBytes (Vec.toList (.ofList [0xff, 0, 0xff] : V256)) := by unfold MaskBytes; decide +kernel

end Vsimd
end Simd
