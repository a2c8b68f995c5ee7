import Verif.Model.Unified
/-
The rest of the width-generic interface `Scalable` (crates/vsimd/src/scalable.rs).
-/
namespace Simd
namespace Vs

/-- The methods of `trait Scalable<V>` (scalable.rs:7-113) that are not in the class `Scalable` of Model/Simd.lean: no generic code
of the workspace calls them. The trait is split in two only so that each class comes right after the definitions it needs. -/
class ScalableRest (n : Nat) where
  i8xn_splat : Isa → Byte → Option (Vec n)
  u8xn_add_sat : Isa → Vec n → Vec n → Option (Vec n)
  u8xn_highbit_all : Isa → Vec n → Option Bool
  u16xn_bswap : Isa → Vec n → Option (Vec n)
  u32xn_bswap : Isa → Vec n → Option (Vec n)
  u64xn_bswap : Isa → Vec n → Option (Vec n)

/-- `impl Scalable<V128>` (scalable.rs:34-36, 59-61, 160-162, 170-182). -/
instance : ScalableRest 16 where
  i8xn_splat s x := splat128 s .i8 x
  u8xn_add_sat s a b := add_sat128 s .u8 a b
  u8xn_highbit_all := u8x16_highbit_all
  u16xn_bswap := u16x8_bswap
  u32xn_bswap := u32x4_bswap
  u64xn_bswap := u64x2_bswap

/-- `impl Scalable<V256>` (scalable.rs:34-36, 59-61, 230-232, 240-252). -/
instance : ScalableRest 32 where
  i8xn_splat s x := splat256 s .i8 x
  u8xn_add_sat s a b := add_sat256 s .u8 a b
  u8xn_highbit_all := u8x32_highbit_all
  u16xn_bswap := u16x16_bswap
  u32xn_bswap := u32x8_bswap
  u64xn_bswap := u64x4_bswap

end Vs
end Simd
