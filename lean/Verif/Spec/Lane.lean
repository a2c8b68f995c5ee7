import Verif.Model.Core
/-
What the element-wise SIMD operations are supposed to compute, in terms of the integers stored in memory order.
Nothing here refers to the instruction sets or to the definitions of the operations.
-/
namespace Simd
namespace Spec

/-- The number stored by little-endian bytes. -/
def leValue : List Byte → Nat
  | [] => 0
  | b :: bs => b.toNat + 256 * leValue bs

/-- A machine integer type. -/
structure Ty where
  bytes : Nat
  signed : Bool
deriving DecidableEq, Repr

/-- Smallest value. -/
def Ty.lo (t : Ty) : Int := if t.signed then -2 ^ (8 * t.bytes - 1) else 0
/-- Largest value. -/
def Ty.hi (t : Ty) : Int := if t.signed then 2 ^ (8 * t.bytes - 1) - 1 else 2 ^ (8 * t.bytes) - 1

/-- The value of type `t` represented by the bit pattern `u`. -/
def Ty.ofBits (t : Ty) (u : Nat) : Int := if t.signed ∧ 2 ^ (8 * t.bytes - 1) ≤ u then (u : Int) - 2 ^ (8 * t.bytes) else u

/-- The bit pattern of element `j` of an array of `w`-byte elements. -/
def bits (w : Nat) (mem : List Byte) (j : Nat) : Nat := leValue ((mem.drop (w * j)).take w)

/-- Element `j` of an array of `t`. -/
def elem (t : Ty) (mem : List Byte) (j : Nat) : Int := t.ofBits (bits t.bytes mem j)

/-- Two's complement wrap-around: the value of type `t` congruent to `z`. -/
def Ty.wrap (t : Ty) (z : Int) : Int := (z - t.lo) % 2 ^ (8 * t.bytes) + t.lo
/-- Saturation. -/
def Ty.clamp (t : Ty) (z : Int) : Int := max t.lo (min t.hi z)
/-- The bit pattern of a comparison result. -/
def Ty.mask (t : Ty) (b : Bool) : Nat := if b then 2 ^ (8 * t.bytes) - 1 else 0

/-- `r` is the element-wise `f` of `a` and `b`, arrays of `t` of the same length. -/
def Zip (t : Ty) (f : Int → Int → Int) (a b r : List Byte) : Prop :=
  r.length = a.length ∧ ∀ j, j < a.length / t.bytes → elem t r j = f (elem t a j) (elem t b j)

/-- `r` is the element-wise comparison of `a` and `b` by `p`. -/
def Cmp (t : Ty) (p : Int → Int → Bool) (a b r : List Byte) : Prop :=
  r.length = a.length ∧ ∀ j, j < a.length / t.bytes → bits t.bytes r j = t.mask (p (elem t a j) (elem t b j))

/-- `r` is the element-wise `f` of `a`. -/
def Map (t : Ty) (f : Int → Int) (a r : List Byte) : Prop :=
  r.length = a.length ∧ ∀ j, j < a.length / t.bytes → elem t r j = f (elem t a j)

def u8 : Ty := ⟨1, false⟩
def u16 : Ty := ⟨2, false⟩
def u32 : Ty := ⟨4, false⟩
def i8 : Ty := ⟨1, true⟩
def i16 : Ty := ⟨2, true⟩
def i32 : Ty := ⟨4, true⟩

/-- Bytewise boolean operation. -/
def Bits (f : Bool → Bool → Bool) (a b r : List Byte) : Prop :=
  r.length = a.length ∧ ∀ i k, i < a.length → k < 8 → (r.getD i 0).getLsbD k = f ((a.getD i 0).getLsbD k) ((b.getD i 0).getLsbD k)

/-- Interleaving, within each 16-byte block, of the `w`-byte elements of `a` and `b` starting at element `off` of the block. -/
def Interleave (w off : Nat) (a b r : List Byte) : Prop :=
  r.length = a.length ∧ ∀ h j, h < a.length / 16 → j < 16 / w / 2 →
    bits w r (h * (16 / w) + 2 * j) = bits w a (h * (16 / w) + off + j) ∧
    bits w r (h * (16 / w) + 2 * j + 1) = bits w b (h * (16 / w) + off + j)

/-- The `w`-byte elements of `ab` with indices `off`, `off + 2`, `off + 4`, …. -/
def EveryOther (w off : Nat) (ab r : List Byte) : Prop :=
  2 * r.length = ab.length ∧ ∀ j, j < r.length / w → bits w r j = bits w ab (2 * j + off)

/-- Byte order reversed in every `w`-byte element. -/
def Reversed (w : Nat) (a r : List Byte) : Prop :=
  r.length = a.length ∧ ∀ j, j < a.length / w → (r.drop (w * j)).take w = ((a.drop (w * j)).take w).reverse

example : elem ⟨2, true⟩ [0xff, 0xff, 0x34, 0x12] 0 = -1 ∧ elem ⟨2, false⟩ [0xff, 0xff, 0x34, 0x12] 1 = 0x1234 := by decide
example : Ty.wrap ⟨1, true⟩ 130 = -126 ∧ Ty.clamp ⟨1, true⟩ 130 = 127 ∧ Ty.wrap ⟨1, false⟩ (-1) = 255 := by decide

end Spec
end Simd
