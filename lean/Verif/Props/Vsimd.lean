import Verif.Lemmas.UnifiedMethods
import Mathlib.Tactic.Linarith
/-
C51: the element-wise operations of vsimd compute, on every instruction set that implements them and at both vector
widths, the integer operation their name says.
-/
namespace Simd
namespace Vsimd
open Intrin Vs

/-- What the binary operations of unified.rs should compute. -/
def Meets (op : Op2) (t : Spec.Ty) (a b r : List Byte) : Prop :=
  match op with
  | .add => Spec.Zip t (fun x y => t.wrap (x + y)) a b r
  | .sub => Spec.Zip t (fun x y => t.wrap (x - y)) a b r
  | .addSat => Spec.Zip t (fun x y => t.clamp (x + y)) a b r
  | .subSat => Spec.Zip t (fun x y => t.clamp (x - y)) a b r
  | .max => Spec.Zip t (fun x y => max x y) a b r
  | .min => Spec.Zip t (fun x y => min x y) a b r
  | .eq => Spec.Cmp t (fun x y => decide (x = y)) a b r
  | .lt => Spec.Cmp t (fun x y => decide (x < y)) a b r

theorem meets_of_lw {n} {op : Op2} {t : Elem} {a b r : Vec n} (h : Lw t.bytes (op.laneFn t) a b r) :
    Meets op t.ty a.toList b.toList r.toList := by
  have hw : 0 < t.ty.bytes := t.bytes_pos
  cases op <;> unfold Meets
  case add => exact Lw.zip (t := t.ty) hw h fun x y => valOf_add hw x y
  case sub => exact Lw.zip (t := t.ty) hw h fun x y => valOf_sub hw x y
  case addSat => exact Lw.zip (t := t.ty) hw h fun x y => valOf_clamp hw _
  case subSat => exact Lw.zip (t := t.ty) hw h fun x y => valOf_clamp hw _
  case max =>
    refine Lw.zip hw h fun x y => ?_
    have := ltB_iff t.ty.signed x y
    show valOf _ (if ltB t.ty.signed x y then y else x) = _
    rw [this]
    split
    · rename_i h; have := of_decide_eq_true h; omega
    · rename_i h; simp only [decide_eq_true_eq] at h; omega
  case min =>
    refine Lw.zip hw h fun x y => ?_
    have := ltB_iff t.ty.signed x y
    show valOf _ (if ltB t.ty.signed x y then x else y) = _
    rw [this]
    split
    · rename_i h; have := of_decide_eq_true h; omega
    · rename_i h; simp only [decide_eq_true_eq] at h; omega
  case eq =>
    refine Lw.cmp hw h fun x y => ?_
    show maskOf _ (x == y) = _
    congr 1
    rw [Bool.eq_iff_iff, beq_iff_eq, decide_eq_true_iff, valOf_inj]
  case lt =>
    refine Lw.cmp hw h fun x y => ?_
    show maskOf _ (ltB t.ty.signed x y) = _
    rw [ltB_iff]; rfl

/-- C51 on 128-bit vectors: whenever an element-wise operation returns, its result is the specified one. -/
theorem C51_binary128 (op : Op2) (s : Isa) (t : Elem) (a b r : V128) (h : op.run128 s t a b = some r) :
    Meets op t.ty a.toList b.toList r.toList := meets_of_lw (run128_lw op s t a b r h)

/-- C51 on 256-bit vectors. -/
theorem C51_binary256 (op : Op2) (s : Isa) (t : Elem) (a b r : V256) (h : op.run256 s t a b = some r) :
    Meets op t.ty a.toList b.toList r.toList := meets_of_lw (run256_lw op s t a b r h)

example : ∃ r, Op2.run128 .lt .sse2 .u16 (.ofList [0xff, 0x7f, 0, 0x80]) (.ofList [0, 0x80, 0xff, 0x7f]) = some r ∧
    r.toList.take 4 = [0xff, 0xff, 0, 0] := ⟨_, rfl, by decide +kernel⟩
example : ∃ r, Op2.run256 .subSat .avx2 .i8 (.ofList [0x80, 0x7f]) (.ofList [1, 0xff]) = some r ∧
    r.toList.take 2 = [0x80, 0x7f] := ⟨_, rfl, by decide +kernel⟩

theorem Lw.unique {n} {w} (hw : 0 < w) {f} {a b r r' : Vec n} (h : Lw w f a b r) (h' : Lw w f a b r') : r = r' := by
  rw [← ofN_getN hw r, ← ofN_getN hw r']
  congr 1; funext j; rw [h j, h' j]

/-- C51: two instruction sets that both implement an operation agree. -/
theorem C51_agree128 (op : Op2) (s s' : Isa) (t : Elem) (a b r r' : V128) (h : op.run128 s t a b = some r)
    (h' : op.run128 s' t a b = some r') : r = r' := Lw.unique t.bytes_pos (run128_lw op s t a b r h) (run128_lw op s' t a b r' h')
theorem C51_agree256 (op : Op2) (s s' : Isa) (t : Elem) (a b r r' : V256) (h : op.run256 s t a b = some r)
    (h' : op.run256 s' t a b = some r') : r = r' := Lw.unique t.bytes_pos (run256_lw op s t a b r h) (run256_lw op s' t a b r' h')

example : (Op2.run128 .max .sse41 .i8 (.ofList [1]) (.ofList [2])).isSome ∧ (Op2.run128 .max .wasm128 .i8 (.ofList [1]) (.ofList [2])).isSome :=
  ⟨rfl, rfl⟩

/-- C51: the binary trait methods of `SIMD128` are the operations of unified.rs at the element type in their name. -/
theorem C51_methods128 (s : Isa) (a b : V128) :
    (u8x16_add s a b = Op2.run128 .add s .u8 a b ∧ u16x8_add s a b = Op2.run128 .add s .u16 a b ∧
     u32x4_add s a b = Op2.run128 .add s .u32 a b ∧ u64x2_add s a b = Op2.run128 .add s .u64 a b) ∧
    (u8x16_sub s a b = Op2.run128 .sub s .u8 a b ∧ u16x8_sub s a b = Op2.run128 .sub s .u16 a b ∧
     u32x4_sub s a b = Op2.run128 .sub s .u32 a b ∧ u64x2_sub s a b = Op2.run128 .sub s .u64 a b) ∧
    (i8x16_add_sat s a b = Op2.run128 .addSat s .i8 a b ∧ u8x16_add_sat s a b = Op2.run128 .addSat s .u8 a b) ∧
    (u8x16_sub_sat s a b = Op2.run128 .subSat s .u8 a b ∧ u16x8_sub_sat s a b = Op2.run128 .subSat s .u16 a b ∧
     i8x16_sub_sat s a b = Op2.run128 .subSat s .i8 a b ∧ i16x8_sub_sat s a b = Op2.run128 .subSat s .i16 a b) ∧
    (u8x16_eq s a b = Op2.run128 .eq s .u8 a b ∧ u16x8_eq s a b = Op2.run128 .eq s .u16 a b ∧ u32x4_eq s a b = Op2.run128 .eq s .u32 a b) ∧
    (u8x16_lt s a b = Op2.run128 .lt s .u8 a b ∧ u16x8_lt s a b = Op2.run128 .lt s .u16 a b ∧ u32x4_lt s a b = Op2.run128 .lt s .u32 a b ∧
     i8x16_lt s a b = Op2.run128 .lt s .i8 a b ∧ i16x8_lt s a b = Op2.run128 .lt s .i16 a b ∧ i32x4_lt s a b = Op2.run128 .lt s .i32 a b) ∧
    (u8x16_max s a b = Op2.run128 .max s .u8 a b ∧ u16x8_max s a b = Op2.run128 .max s .u16 a b ∧ u32x4_max s a b = Op2.run128 .max s .u32 a b ∧
     i8x16_max s a b = Op2.run128 .max s .i8 a b ∧ i16x8_max s a b = Op2.run128 .max s .i16 a b ∧ i32x4_max s a b = Op2.run128 .max s .i32 a b) ∧
    (u8x16_min s a b = Op2.run128 .min s .u8 a b ∧ u16x8_min s a b = Op2.run128 .min s .u16 a b ∧ u32x4_min s a b = Op2.run128 .min s .u32 a b ∧
     i8x16_min s a b = Op2.run128 .min s .i8 a b ∧ i16x8_min s a b = Op2.run128 .min s .i16 a b ∧ i32x4_min s a b = Op2.run128 .min s .i32 a b) :=
  ⟨⟨u8x16_add_gen .., rfl, rfl, rfl⟩, ⟨u8x16_sub_gen .., rfl, u32x4_sub_gen .., rfl⟩, ⟨i8x16_add_sat_gen .., u8x16_add_sat_gen ..⟩,
   ⟨u8x16_sub_sat_gen .., rfl, rfl, rfl⟩, ⟨u8x16_eq_gen .., rfl, rfl⟩, ⟨u8x16_lt_gen .., rfl, u32x4_lt_gen .., i8x16_lt_gen .., rfl, rfl⟩,
   ⟨u8x16_max_gen .., rfl, u32x4_max_gen .., rfl, rfl, rfl⟩, ⟨u8x16_min_gen .., rfl, rfl, rfl, rfl, rfl⟩⟩

/-- C51: likewise for `SIMD256`. -/
theorem C51_methods256 (s : Isa) (a b : V256) :
    (u8x32_add s a b = Op2.run256 .add s .u8 a b ∧ u16x16_add s a b = Op2.run256 .add s .u16 a b ∧
     u32x8_add s a b = Op2.run256 .add s .u32 a b ∧ u64x4_add s a b = Op2.run256 .add s .u64 a b) ∧
    (u8x32_sub s a b = Op2.run256 .sub s .u8 a b ∧ u16x16_sub s a b = Op2.run256 .sub s .u16 a b ∧
     u32x8_sub s a b = Op2.run256 .sub s .u32 a b ∧ u64x4_sub s a b = Op2.run256 .sub s .u64 a b) ∧
    (i8x32_add_sat s a b = Op2.run256 .addSat s .i8 a b ∧ u8x32_add_sat s a b = Op2.run256 .addSat s .u8 a b) ∧
    (u8x32_sub_sat s a b = Op2.run256 .subSat s .u8 a b ∧ u16x16_sub_sat s a b = Op2.run256 .subSat s .u16 a b ∧
     i8x32_sub_sat s a b = Op2.run256 .subSat s .i8 a b ∧ i16x16_sub_sat s a b = Op2.run256 .subSat s .i16 a b) ∧
    (u8x32_eq s a b = Op2.run256 .eq s .u8 a b ∧ u16x16_eq s a b = Op2.run256 .eq s .u16 a b ∧ u32x8_eq s a b = Op2.run256 .eq s .u32 a b) ∧
    (u8x32_lt s a b = Op2.run256 .lt s .u8 a b ∧ u16x16_lt s a b = Op2.run256 .lt s .u16 a b ∧ u32x8_lt s a b = Op2.run256 .lt s .u32 a b ∧
     i8x32_lt s a b = Op2.run256 .lt s .i8 a b ∧ i16x16_lt s a b = Op2.run256 .lt s .i16 a b ∧ i32x8_lt s a b = Op2.run256 .lt s .i32 a b) ∧
    (u8x32_max s a b = Op2.run256 .max s .u8 a b ∧ u16x16_max s a b = Op2.run256 .max s .u16 a b ∧ u32x8_max s a b = Op2.run256 .max s .u32 a b ∧
     i8x32_max s a b = Op2.run256 .max s .i8 a b ∧ i16x16_max s a b = Op2.run256 .max s .i16 a b ∧ i32x8_max s a b = Op2.run256 .max s .i32 a b) ∧
    (u8x32_min s a b = Op2.run256 .min s .u8 a b ∧ u16x16_min s a b = Op2.run256 .min s .u16 a b ∧ u32x8_min s a b = Op2.run256 .min s .u32 a b ∧
     i8x32_min s a b = Op2.run256 .min s .i8 a b ∧ i16x16_min s a b = Op2.run256 .min s .i16 a b ∧ i32x8_min s a b = Op2.run256 .min s .i32 a b) :=
  ⟨⟨u8x32_add_gen .., rfl, rfl, rfl⟩, ⟨u8x32_sub_gen .., rfl, u32x8_sub_gen .., rfl⟩, ⟨i8x32_add_sat_gen .., rfl⟩,
   ⟨u8x32_sub_sat_gen .., rfl, rfl, rfl⟩, ⟨u8x32_eq_gen .., rfl, rfl⟩, ⟨u8x32_lt_gen .., rfl, u32x8_lt_gen .., i8x32_lt_gen .., rfl, rfl⟩,
   ⟨rfl, rfl, u32x8_max_gen .., rfl, rfl, rfl⟩, ⟨rfl, rfl, rfl, rfl, rfl, rfl⟩⟩

/-! ### Splat -/

/-- C51: `splat` never panics and puts `x` in every element. -/
theorem C51_splat128 (s : Isa) (t : Elem) (x : BitVec (8 * t.bytes)) :
    ∃ r, splat128 s t x = some r ∧ ∀ j, j < 16 / t.bytes → Spec.bits t.bytes r.toList j = x.toNat := by
  refine ⟨set1N t.bytes x, by cases s <;> rfl, fun j hj => ?_⟩
  rw [bits_eq _ (lane_in hj), getN_set1N t.bytes_pos]
theorem C51_splat256 (s : Isa) (t : Elem) (x : BitVec (8 * t.bytes)) :
    ∃ r, splat256 s t x = some r ∧ ∀ j, j < 32 / t.bytes → Spec.bits t.bytes r.toList j = x.toNat := by
  have h : splat256 s t x = some (set1N t.bytes x) ∨ splat256 s t x = some (Vec.x2 (set1N t.bytes x)) := by
    cases s <;> cases t <;> first | exact .inl rfl | exact .inr rfl
  rcases h with h | h
  · refine ⟨_, h, fun j hj => ?_⟩
    rw [bits_eq _ (lane_in hj), getN_set1N t.bytes_pos]
  · refine ⟨_, h, fun j hj => ?_⟩
    rw [bits_eq _ (lane_in hj), Vec.x2, getN_join t.bytes_mul, getN_set1N t.bytes_pos, getN_set1N t.bytes_pos, ite_self]

example : ∃ r, splat128 .neon32 .u32 0x04030201#32 = some r ∧ r.toList.take 5 = [1, 2, 3, 4, 1] := ⟨_, rfl, by decide +kernel⟩

/-- C51: the splat methods are these. -/
theorem C51_splat_methods (s : Isa) :
    (∀ x, u8x16_splat s x = splat128 s .u8 x) ∧ (∀ x, u16x8_splat s x = splat128 s .u16 x) ∧ (∀ x, u32x4_splat s x = splat128 s .u32 x) ∧
    (∀ x, u64x2_splat s x = splat128 s .u64 x) ∧ (∀ x, i8x16_splat s x = splat128 s .i8 x) ∧ (∀ x, i16x8_splat s x = splat128 s .i16 x) ∧
    (∀ x, i32x4_splat s x = splat128 s .i32 x) ∧ (∀ x, i64x2_splat s x = splat128 s .i64 x) ∧
    (∀ x, u8x32_splat s x = splat256 s .u8 x) ∧ (∀ x, u16x16_splat s x = splat256 s .u16 x) ∧ (∀ x, u32x8_splat s x = splat256 s .u32 x) ∧
    (∀ x, u64x4_splat s x = splat256 s .u64 x) ∧ (∀ x, i8x32_splat s x = splat256 s .i8 x) ∧ (∀ x, i16x16_splat s x = splat256 s .i16 x) ∧
    (∀ x, i32x8_splat s x = splat256 s .i32 x) ∧ (∀ x, i64x4_splat s x = splat256 s .i64 x) := by
  refine ⟨fun x => ?_, fun x => ?_, fun x => ?_, fun x => ?_, fun _ => rfl, fun _ => rfl, fun _ => rfl, fun _ => rfl,
    fun x => ?_, fun x => ?_, fun x => ?_, fun x => ?_, fun _ => rfl, fun _ => rfl, fun _ => rfl, fun _ => rfl⟩
  · cases s <;> exact congrArg some (set1_8_eq x)
  · cases s <;> rfl
  · cases s <;> rfl
  · cases s <;> rfl
  · cases s <;> simp only [u8x32_splat, u8x16_splat, t1, Isa.is, set1_8_eq] <;> rfl
  · cases s <;> rfl
  · cases s <;> rfl
  · cases s <;> rfl

/-! ### Multiplication, average, shifts -/

theorem zip_map16 {n} {f : BitVec 16 → BitVec 16 → BitVec 16} {sg : Bool} {g : Int → Int → Int}
    (h : ∀ x y, valOf sg (f x y) = g (valOf sg x) (valOf sg y)) (a b : Vec n) :
    Spec.Zip ⟨2, sg⟩ g a.toList b.toList (map16 f a b).toList := by
  rw [map16_eq]; exact Lw.zip (t := ⟨2, sg⟩) Nat.two_pos (Lw.mapN Nat.two_pos f a b) h
theorem zip_map8 {n} {f : Byte → Byte → Byte} {sg : Bool} {g : Int → Int → Int}
    (h : ∀ x y, valOf sg (f x y) = g (valOf sg x) (valOf sg y)) (a b : Vec n) :
    Spec.Zip ⟨1, sg⟩ g a.toList b.toList (map8 f a b).toList := by
  rw [map8_eq]; exact Lw.zip (t := ⟨1, sg⟩) Nat.one_pos (Lw.mapN Nat.one_pos f a b) h

/-- C51: `i16x8_mul_lo`, `i16x16_mul_lo`. -/
theorem C51_i16_mul_lo (s : Isa) :
    (∀ a b : V128, ∃ r, i16x8_mul_lo s a b = some r ∧ Spec.Zip Spec.i16 (fun x y => Spec.i16.wrap (x * y)) a.toList b.toList r.toList) ∧
    (∀ a b : V256, ∃ r, i16x16_mul_lo s a b = some r ∧ Spec.Zip Spec.i16 (fun x y => Spec.i16.wrap (x * y)) a.toList b.toList r.toList) :=
  ⟨fun a b => ⟨_, i16x8_mul_lo_eq s a b, zip_map16 (fun x y => valOf_mul (t := Spec.i16) (by decide) x y) a b⟩,
   fun a b => ⟨_, i16x16_mul_lo_eq s a b, zip_map16 (fun x y => valOf_mul (t := Spec.i16) (by decide) x y) a b⟩⟩

/-- C51: `i32x4_mul_lo`, `i32x8_mul_lo` (not on plain SSE2/SSSE3). -/
theorem C51_i32_mul_lo (s : Isa) :
    (∀ a b r : Vec 16, i32x4_mul_lo s a b = some r → Spec.Zip Spec.i32 (fun x y => Spec.i32.wrap (x * y)) a.toList b.toList r.toList) ∧
    (∀ a b r : Vec 32, i32x8_mul_lo s a b = some r → Spec.Zip Spec.i32 (fun x y => Spec.i32.wrap (x * y)) a.toList b.toList r.toList) := by
  have h1 : ∀ a b r : V128, i32x4_mul_lo s a b = some r → Lw 4 (· * ·) a b r := by
    intro a b r h
    have : r = mullo32 a b := by cases s <;> simp [i32x4_mul_lo, Isa.is] at h <;> exact h.symm
    rw [this]; exact Lw.mapN (by decide) _ a b
  have h2 : ∀ a b r : V256, i32x8_mul_lo s a b = some r → Lw 4 (· * ·) a b r := by
    intro a b r h
    unfold i32x8_mul_lo at h
    split at h
    · rw [← Option.some.inj h]; exact Lw.mapN (by decide) _ a b
    · exact Lw.vop2 (m := 4) rfl h1 h
  exact ⟨fun a b r h => Lw.zip (t := Spec.i32) (by decide) (h1 a b r h) fun x y => valOf_mul (t := Spec.i32) (by decide) x y,
    fun a b r h => Lw.zip (t := Spec.i32) (by decide) (h2 a b r h) fun x y => valOf_mul (t := Spec.i32) (by decide) x y⟩

/-- High half of a product, rounded down. -/
def hi16 (x y : Int) : Int := x * y / 65536

theorem valOf_mulhi_u (x y : BitVec 16) : valOf false (BitVec.ofNat 16 (x.toNat * y.toNat / 65536)) = hi16 (valOf false x) (valOf false y) := by
  have hx := x.isLt; have hy := y.isLt
  have : x.toNat * y.toNat / 65536 < 65536 := by
    have : x.toNat * y.toNat ≤ 65535 * 65535 := Nat.mul_le_mul (by omega) (by omega)
    omega
  simp only [valOf, hi16, Bool.false_eq_true, if_false, BitVec.toNat_ofNat]
  rw [Nat.mod_eq_of_lt (by omega)]; push_cast; rfl

theorem valOf_mulhi_s (x y : BitVec 16) : valOf true (BitVec.ofInt 16 (x.toInt * y.toInt / 65536)) = hi16 (valOf true x) (valOf true y) := by
  have h := valOf_mem (t := Spec.i16) (by decide) x
  have h' := valOf_mem (t := Spec.i16) (by decide) y
  simp only [Spec.i16, Spec.Ty.lo, Spec.Ty.hi, valOf, if_true] at h h'
  norm_num at h h'
  have hb : x.toInt * y.toInt ≤ 1073741824 ∧ -1073741824 ≤ x.toInt * y.toInt := by constructor <;> nlinarith
  have := valOf_ofInt (t := Spec.i16) (by decide) (x.toInt * y.toInt / 65536)
  rw [wrap_of_mem (by decide)] at this
  · exact this
  · simp only [Spec.i16, Spec.Ty.lo, if_true]; norm_num; omega
  · simp only [Spec.i16, Spec.Ty.hi, if_true]; norm_num; omega

/-- C51: `u16x8_mul_hi`, `u16x16_mul_hi`, `i16x8_mul_hi`, `i16x16_mul_hi`. -/
theorem C51_mul_hi (s : Isa) :
    (∀ a b r : V128, u16x8_mul_hi s a b = some r → Spec.Zip Spec.u16 hi16 a.toList b.toList r.toList) ∧
    (∀ a b r : V256, u16x16_mul_hi s a b = some r → Spec.Zip Spec.u16 hi16 a.toList b.toList r.toList) ∧
    (∀ a b r : V128, i16x8_mul_hi s a b = some r → Spec.Zip Spec.i16 hi16 a.toList b.toList r.toList) ∧
    (∀ a b r : V256, i16x16_mul_hi s a b = some r → Spec.Zip Spec.i16 hi16 a.toList b.toList r.toList) := by
  have h1 : ∀ a b r : V128, u16x8_mul_hi s a b = some r → r = mulhi_u16 a b := by
    intro a b r h; unfold u16x8_mul_hi at h; split at h <;> simp_all
  have h2 : ∀ a b r : V256, u16x16_mul_hi s a b = some r → r = mulhi_u16 a b := by
    intro a b r h
    unfold u16x16_mul_hi at h
    split at h
    · simp_all
    · obtain ⟨r0, r1, e0, e1, rfl⟩ := vop2_some h
      rw [h1 _ _ _ e0, h1 _ _ _ e1]; exact join_map16 _ a b
  have h3 : ∀ a b r : V128, i16x8_mul_hi s a b = some r → Lw 2 (fun x y => BitVec.ofInt 16 (x.toInt * y.toInt / 65536)) a b r := by
    intro a b r h; unfold i16x8_mul_hi at h
    split at h
    · rw [← Option.some.inj h]; exact Lw.mapN (by decide) _ a b
    · simp at h
  have h4 : ∀ a b r : V256, i16x16_mul_hi s a b = some r → Lw 2 (fun x y => BitVec.ofInt 16 (x.toInt * y.toInt / 65536)) a b r := by
    intro a b r h
    unfold i16x16_mul_hi at h
    split at h
    · rw [← Option.some.inj h]; exact Lw.mapN (by decide) _ a b
    · exact Lw.vop2 (m := 8) rfl h3 h
  refine ⟨fun a b r h => ?_, fun a b r h => ?_, fun a b r h => ?_, fun a b r h => ?_⟩
  · rw [h1 a b r h]; exact zip_map16 valOf_mulhi_u a b
  · rw [h2 a b r h]; exact zip_map16 valOf_mulhi_u a b
  · exact Lw.zip (t := Spec.i16) (by decide) (h3 a b r h) valOf_mulhi_s
  · exact Lw.zip (t := Spec.i16) (by decide) (h4 a b r h) valOf_mulhi_s

example : ∃ r, i16x8_mul_hi .sse2 (.ofList [0xff, 0xff]) (.ofList [1, 0]) = some r ∧ r.toList.take 2 = [0xff, 0xff] := ⟨_, rfl, by decide +kernel⟩
example : ∃ r, i32x4_mul_lo .neon32 (.ofList [3]) (.ofList [0xff, 0xff, 0xff, 0xff]) = some r ∧ r.toList.take 4 = [0xfd, 0xff, 0xff, 0xff] :=
  ⟨_, rfl, by decide +kernel⟩

theorem valOf_avg (x y : Byte) : valOf false (BitVec.ofNat 8 ((x.toNat + y.toNat + 1) / 2)) = (valOf false x + valOf false y + 1) / 2 := by
  have hx := x.isLt; have hy := y.isLt
  simp only [valOf, Bool.false_eq_true, if_false, BitVec.toNat_ofNat]
  omega

/-- C51: `u8x16_avgr`, `u8x32_avgr`: average rounded up. -/
theorem C51_avgr (s : Isa) :
    (∀ a b : V128, ∃ r, u8x16_avgr s a b = some r ∧ Spec.Zip Spec.u8 (fun x y => (x + y + 1) / 2) a.toList b.toList r.toList) ∧
    (∀ a b : V256, ∃ r, u8x32_avgr s a b = some r ∧ Spec.Zip Spec.u8 (fun x y => (x + y + 1) / 2) a.toList b.toList r.toList) :=
  ⟨fun a b => ⟨_, u8x16_avgr_eq s a b, zip_map8 valOf_avg a b⟩, fun a b => ⟨_, u8x32_avgr_eq s a b, zip_map8 valOf_avg a b⟩⟩

theorem map_of {n} {w : Nat} (hw : 0 < w) {f : BitVec (8 * w) → BitVec (8 * w)} {g : Int → Int} {a r : Vec n}
    (h : ∀ j, r.getN w j = f (a.getN w j)) (hfg : ∀ x, valOf false (f x) = g (valOf false x)) : Spec.Map ⟨w, false⟩ g a.toList r.toList := by
  refine ⟨by simp, fun j hj => ?_⟩
  rw [Vec.toList_length] at hj
  rw [elem_eq (t := ⟨w, false⟩) hw a hj, elem_eq (t := ⟨w, false⟩) hw r hj]
  show valOf false (r.getN w j) = g (valOf false (a.getN w j))
  rw [h j, hfg]

theorem valOf_shl {w : Nat} (k : Nat) (x : BitVec w) : valOf false (x <<< k) = (valOf false x * 2 ^ k) % 2 ^ w := by
  simp only [valOf, Bool.false_eq_true, if_false, BitVec.toNat_shiftLeft, Nat.shiftLeft_eq]; push_cast; rfl
theorem valOf_shr {w : Nat} (k : Nat) (x : BitVec w) : valOf false (x >>> k) = valOf false x / 2 ^ k := by
  simp only [valOf, Bool.false_eq_true, if_false, BitVec.toNat_ushiftRight, Nat.shiftRight_eq_div_pow]; push_cast; rfl

theorem shl16_getN {n} (k) (a : Vec n) (j) : (shl16 k a).getN 2 j = (a.getN 2 j : BitVec 16) <<< k := by rw [getN_two, getN_two, shl16, get16_of16]
theorem shr16_getN {n} (k) (a : Vec n) (j) : (shr16 k a).getN 2 j = (a.getN 2 j : BitVec 16) >>> k := by rw [getN_two, getN_two, shr16, get16_of16]
theorem shl32_getN {n} (k) (a : Vec n) (j) : (shl32 k a).getN 4 j = (a.getN 4 j : BitVec 32) <<< k := by rw [getN_four, getN_four, shl32, get32_of32]
theorem shr32_getN {n} (k) (a : Vec n) (j) : (shr32 k a).getN 4 j = (a.getN 4 j : BitVec 32) >>> k := by rw [getN_four, getN_four, shr32, get32_of32]

/-- C51: left shifts drop the high bits, right shifts round down. The immediate is in range for the element. -/
theorem C51_shift16 (s : Isa) (k : Nat) (_hk : k < 16) :
    (∀ a : V128, ∃ r, u16x8_shl s k a = some r ∧ Spec.Map Spec.u16 (fun x => x * 2 ^ k % 65536) a.toList r.toList) ∧
    (∀ a : V128, ∃ r, u16x8_shr s k a = some r ∧ Spec.Map Spec.u16 (fun x => x / 2 ^ k) a.toList r.toList) ∧
    (∀ a : V256, ∃ r, u16x16_shl s k a = some r ∧ Spec.Map Spec.u16 (fun x => x * 2 ^ k % 65536) a.toList r.toList) ∧
    (∀ a : V256, ∃ r, u16x16_shr s k a = some r ∧ Spec.Map Spec.u16 (fun x => x / 2 ^ k) a.toList r.toList) :=
  ⟨fun a => ⟨_, u16x8_shl_eq s k a, map_of (by decide) (shl16_getN k a) fun x => valOf_shl (w := 16) k x⟩,
   fun a => ⟨_, u16x8_shr_eq s k a, map_of (by decide) (shr16_getN k a) fun x => valOf_shr (w := 16) k x⟩,
   fun a => ⟨_, u16x16_shl_eq s k a, map_of (by decide) (shl16_getN k a) fun x => valOf_shl (w := 16) k x⟩,
   fun a => ⟨_, u16x16_shr_eq s k a, map_of (by decide) (shr16_getN k a) fun x => valOf_shr (w := 16) k x⟩⟩
theorem C51_shift32 (s : Isa) (k : Nat) (_hk : k < 32) :
    (∀ a : V128, ∃ r, u32x4_shl s k a = some r ∧ Spec.Map Spec.u32 (fun x => x * 2 ^ k % 4294967296) a.toList r.toList) ∧
    (∀ a : V128, ∃ r, u32x4_shr s k a = some r ∧ Spec.Map Spec.u32 (fun x => x / 2 ^ k) a.toList r.toList) ∧
    (∀ a : V256, ∃ r, u32x8_shl s k a = some r ∧ Spec.Map Spec.u32 (fun x => x * 2 ^ k % 4294967296) a.toList r.toList) ∧
    (∀ a : V256, ∃ r, u32x8_shr s k a = some r ∧ Spec.Map Spec.u32 (fun x => x / 2 ^ k) a.toList r.toList) :=
  ⟨fun a => ⟨_, u32x4_shl_eq s k a, map_of (by decide) (shl32_getN k a) fun x => valOf_shl (w := 32) k x⟩,
   fun a => ⟨_, u32x4_shr_eq s k a, map_of (by decide) (shr32_getN k a) fun x => valOf_shr (w := 32) k x⟩,
   fun a => ⟨_, u32x8_shl_eq s k a, map_of (by decide) (shl32_getN k a) fun x => valOf_shl (w := 32) k x⟩,
   fun a => ⟨_, u32x8_shr_eq s k a, map_of (by decide) (shr32_getN k a) fun x => valOf_shr (w := 32) k x⟩⟩

/-! ### Bitwise operations -/

theorem bits_map8 {n} {f : Byte → Byte → Byte} {g : Bool → Bool → Bool}
    (h : ∀ x y : Byte, ∀ k, k < 8 → (f x y).getLsbD k = g (x.getLsbD k) (y.getLsbD k)) (a b : Vec n) :
    Spec.Bits g a.toList b.toList (map8 f a b).toList := by
  refine ⟨by simp, fun i k hi hk => ?_⟩
  rw [Vec.toList_length] at hi
  have hg : ∀ v : Vec n, v.toList.getD i 0 = v.lane i := by
    exact fun v => toList_getD v hi
  rw [hg, hg, hg, map8_lane, h _ _ k hk]

/-- C51: `and`, `or`, `xor`, `andnot` at both widths. -/
theorem C51_bitwise (s : Isa) :
    (∀ a b : V128, (∃ r, v128_and s a b = some r ∧ Spec.Bits (fun x y => x && y) a.toList b.toList r.toList) ∧
      (∃ r, v128_or s a b = some r ∧ Spec.Bits (fun x y => x || y) a.toList b.toList r.toList) ∧
      (∃ r, v128_xor s a b = some r ∧ Spec.Bits (fun x y => x != y) a.toList b.toList r.toList) ∧
      (∃ r, v128_andnot s a b = some r ∧ Spec.Bits (fun x y => x && !y) a.toList b.toList r.toList)) ∧
    (∀ a b : V256, (∃ r, v256_and s a b = some r ∧ Spec.Bits (fun x y => x && y) a.toList b.toList r.toList) ∧
      (∃ r, v256_or s a b = some r ∧ Spec.Bits (fun x y => x || y) a.toList b.toList r.toList) ∧
      (∃ r, v256_xor s a b = some r ∧ Spec.Bits (fun x y => x != y) a.toList b.toList r.toList) ∧
      (∃ r, v256_andnot s a b = some r ∧ Spec.Bits (fun x y => x && !y) a.toList b.toList r.toList)) := by
  refine ⟨fun a b => ⟨⟨_, v128_and_eq s a b, bits_map8 ?_ a b⟩, ⟨_, v128_or_eq s a b, bits_map8 ?_ a b⟩,
    ⟨_, v128_xor_eq s a b, bits_map8 ?_ a b⟩, ⟨_, v128_andnot_eq s a b, bits_map8 ?_ a b⟩⟩,
    fun a b => ⟨⟨_, v256_and_eq s a b, bits_map8 ?_ a b⟩, ⟨_, v256_or_eq s a b, bits_map8 ?_ a b⟩,
    ⟨_, v256_xor_eq s a b, bits_map8 ?_ a b⟩, ⟨_, v256_andnot_eq s a b, bits_map8 ?_ a b⟩⟩⟩ <;>
  · intro x y k hk; simp [hk]

theorem not_via_xor {n} (a : Vec n) : Intrin.xor a (eq8 a a) = Intrin.not a := by
  apply Vec.ext; intro i
  simp only [Intrin.xor, eq8, Intrin.not, map8_lane, beq_self_eq_true, maskOf, if_true, BitVec.xor_allOnes]

/-- C51: `not`. -/
theorem C51_not (s : Isa) :
    (∀ a : V128, ∃ r, v128_not s a = some r ∧ Spec.Bits (fun x _ => !x) a.toList a.toList r.toList) ∧
    (∀ a : V256, ∃ r, v256_not s a = some r ∧ Spec.Bits (fun x _ => !x) a.toList a.toList r.toList) := by
  have h : ∀ {n} (a : Vec n), Spec.Bits (fun x _ => !x) a.toList a.toList (Intrin.not a).toList := by
    intro n a
    exact bits_map8 (f := fun x _ => ~~~x) (fun x _ k hk => by simp [hk]) a a
  have h1 : ∀ a : V128, v128_not s a = some (Intrin.not a) := by
    intro a; cases s <;> simp [v128_not, Isa.is, not_via_xor]
  refine ⟨fun a => ⟨_, h1 a, h a⟩, fun a => ⟨Intrin.not a, ?_, h a⟩⟩
  have h2 : join (Intrin.not a.lo) (Intrin.not a.hi) = Intrin.not a := join_map8 (fun x _ => ~~~x) a a
  unfold v256_not
  split
  · simp [not_via_xor]
  · simp [vop1, h1, h2]

/-- C51: `bsl`: for each bit if a == 1 { b } else { c }. -/
theorem C51_bsl (s : Isa) :
    (∀ a b c : V128, ∃ r, v128_bsl s a b c = some r ∧ ∀ i < 16, ∀ k < 8,
      (r.toList.getD i 0).getLsbD k = if (a.toList.getD i 0).getLsbD k then (b.toList.getD i 0).getLsbD k else (c.toList.getD i 0).getLsbD k) ∧
    (∀ a b c : V256, ∃ r, v256_bsl s a b c = some r ∧ ∀ i < 32, ∀ k < 8,
      (r.toList.getD i 0).getLsbD k = if (a.toList.getD i 0).getLsbD k then (b.toList.getD i 0).getLsbD k else (c.toList.getD i 0).getLsbD k) := by
  have h : ∀ {n} (a b c : Vec n), ∀ i < n, ∀ k < 8, ((bsl a b c).toList.getD i 0).getLsbD k =
      if (a.toList.getD i 0).getLsbD k then (b.toList.getD i 0).getLsbD k else (c.toList.getD i 0).getLsbD k := by
    intro n a b c i hi k hk
    have hg : ∀ v : Vec n, v.toList.getD i 0 = v.lane i := by
      exact fun v => toList_getD v hi
    rw [hg, hg, hg, hg, bsl_lane]
    simp only [BitVec.getLsbD_or, BitVec.getLsbD_and, BitVec.getLsbD_not, hk, decide_true, Bool.true_and]
    cases (a.lane i).getLsbD k <;> simp
  exact ⟨fun a b c => ⟨_, v128_bsl_eq s a b c, h a b c⟩, fun a b c => ⟨_, v256_bsl_eq s a b c, h a b c⟩⟩

/-! ### Operations that change the element width -/

/-- `_mm_madd_epi16`: products of adjacent `i16` pairs, added with 32-bit wrap-around. -/
def Madd (a b r : List Byte) : Prop := r.length = a.length ∧ ∀ j, j < a.length / 4 → Spec.elem Spec.i32 r j =
  Spec.i32.wrap (Spec.elem Spec.i16 a (2 * j) * Spec.elem Spec.i16 b (2 * j) + Spec.elem Spec.i16 a (2 * j + 1) * Spec.elem Spec.i16 b (2 * j + 1))

/-- `_mm_maddubs_epi16`: products of `u8` elements of `a` and `i8` elements of `b`, adjacent ones added with saturation to `i16`. -/
def Maddubs (a b r : List Byte) : Prop := r.length = a.length ∧ ∀ j, j < a.length / 2 → Spec.elem Spec.i16 r j =
  Spec.i16.clamp (Spec.elem Spec.u8 a (2 * j) * Spec.elem Spec.i8 b (2 * j) + Spec.elem Spec.u8 a (2 * j + 1) * Spec.elem Spec.i8 b (2 * j + 1))

theorem elem_i16 {n} (a : Vec n) {j} (h : j < n / 2) : Spec.elem Spec.i16 a.toList j = (a.get16 j).toInt := by
  rw [elem_eq (t := Spec.i16) (by decide) a h]
  show (a.getN 2 j).toInt = _
  rw [getN_two]
theorem elem_u16 {n} (a : Vec n) {j} (h : j < n / 2) : Spec.elem Spec.u16 a.toList j = (a.get16 j).toNat := by
  rw [elem_eq (t := Spec.u16) (by decide) a h]
  show ((a.getN 2 j).toNat : Int) = _
  rw [getN_two]
theorem elem_u8 {n} (a : Vec n) {j} (h : j < n) : Spec.elem Spec.u8 a.toList j = (a.lane j).toNat := by
  rw [elem_eq (t := Spec.u8) (by decide) a (by simpa [Spec.u8] using h)]
  show ((a.getN 1 j).toNat : Int) = _
  rw [getN_one]
theorem elem_i8 {n} (a : Vec n) {j} (h : j < n) : Spec.elem Spec.i8 a.toList j = (a.lane j).toInt := by
  rw [elem_eq (t := Spec.i8) (by decide) a (by simpa [Spec.i8] using h)]
  show (a.getN 1 j).toInt = _
  rw [getN_one]

theorem madd_spec {n} (a b : Vec n) : Madd a.toList b.toList (madd16 a b).toList := by
  refine ⟨by simp, fun j hj => ?_⟩
  rw [Vec.toList_length] at hj
  rw [elem_eq (t := Spec.i32) (by decide) _ hj, elem_i16 a (by omega), elem_i16 b (by omega), elem_i16 a (by omega), elem_i16 b (by omega),
    ← valOf_ofInt (t := Spec.i32) (by decide)]
  show valOf true ((madd16 a b).getN 4 j) = _
  rw [getN_four, madd16, get32_of32]; rfl

theorem maddubs_spec {n} (a b : Vec n) : Maddubs a.toList b.toList (maddubs a b).toList := by
  refine ⟨by simp, fun j hj => ?_⟩
  rw [Vec.toList_length] at hj
  rw [elem_eq (t := Spec.i16) (by decide) _ hj, elem_u8 a (by omega), elem_i8 b (by omega), elem_u8 a (by omega), elem_i8 b (by omega),
    ← valOf_clamp (t := Spec.i16) (by decide)]
  show valOf true ((maddubs a b).getN 2 j) = _
  rw [getN_two, maddubs, get16_of16]; rfl

/-- C51: `i16x8_madd`, `i16x16_madd`. -/
theorem C51_madd (s : Isa) :
    (∀ a b r : V128, i16x8_madd s a b = some r → Madd a.toList b.toList r.toList) ∧
    (∀ a b r : V256, i16x16_madd s a b = some r → Madd a.toList b.toList r.toList) := by
  have h1 : ∀ a b r : V128, i16x8_madd s a b = some r → r = madd16 a b := by
    intro a b r h; unfold i16x8_madd at h; split at h <;> simp_all
  refine ⟨fun a b r h => h1 a b r h ▸ madd_spec a b, fun a b r h => ?_⟩
  unfold i16x16_madd at h
  split at h
  · exact Option.some.inj h ▸ madd_spec a b
  · obtain ⟨r0, r1, e0, e1, rfl⟩ := vop2_some h
    rw [h1 _ _ _ e0, h1 _ _ _ e1, join_madd16]; exact madd_spec a b

/-- C51: `i16x8_maddubs`, `i16x16_maddubs`. -/
theorem C51_maddubs (s : Isa) :
    (∀ a b r : V128, i16x8_maddubs s a b = some r → Maddubs a.toList b.toList r.toList) ∧
    (∀ a b r : V256, i16x16_maddubs s a b = some r → Maddubs a.toList b.toList r.toList) := by
  have h1 : ∀ a b r : V128, i16x8_maddubs s a b = some r → r = maddubs a b := by
    intro a b r h; unfold i16x8_maddubs at h; split at h <;> simp_all
  refine ⟨fun a b r h => h1 a b r h ▸ maddubs_spec a b, fun a b r h => ?_⟩
  unfold i16x16_maddubs at h
  split at h
  · exact Option.some.inj h ▸ maddubs_spec a b
  · obtain ⟨r0, r1, e0, e1, rfl⟩ := vop2_some h
    rw [h1 _ _ _ e0, h1 _ _ _ e1, join_maddubs]; exact maddubs_spec a b

example : ∃ r, i16x8_maddubs .ssse3 (.ofList [255, 255, 1, 2]) (.ofList [0x80, 0x80, 3, 0xff]) = some r ∧ r.toList.take 4 = [0, 0x80, 1, 0] :=
  ⟨_, rfl, by decide +kernel⟩

/-- C51: `i16x8_packus`: the `i16` elements of `a` then `b`, saturated to `u8`. -/
theorem C51_packus (s : Isa) (a b r : V128) (h : i16x8_packus s a b = some r) (j : Nat) (hj : j < 16) :
    Spec.elem Spec.u8 r.toList j = Spec.u8.clamp (Spec.elem Spec.i16 (a.toList ++ b.toList) j) := by
  unfold i16x8_packus at h
  split at h
  · have hl : a.toList ++ b.toList = (join a b).toList := by rw [toList_split]; rfl
    rw [← Option.some.inj h, elem_u8 _ hj, hl, elem_i16 _ (by omega)]
    have hg : (join a b).get16 j = if j < 8 then a.get16 j else b.get16 (j - 8) := by
      rw [← getN_two, getN_join (w := 2) (m := 8) rfl, getN_two, getN_two]
    have hp : ∀ x : BitVec 16, ((packus1 x).toNat : Int) = Spec.u8.clamp x.toInt := by
      intro x
      simp only [packus1, BitVec.toNat_ofNat, Spec.u8, Spec.Ty.clamp, Spec.Ty.lo, Spec.Ty.hi, Bool.false_eq_true, if_false]
      norm_num; omega
    rw [hg]
    simp only [packus]
    split <;> exact hp _
  · simp at h

example : ∃ r, i16x8_packus .sse2 (.ofList [0xff, 0xff, 0, 1]) (.ofList [7, 0]) = some r ∧ r.toList.take 9 = [0, 255, 0, 0, 0, 0, 0, 0, 7] :=
  ⟨_, rfl, by decide +kernel⟩

/-- C51: `u16x16_from_u8x16` zero-extends every byte and never panics. -/
theorem C51_widen (s : Isa) (a : V128) :
    ∃ r, u16x16_from_u8x16 s a = some r ∧ ∀ j, j < 16 → Spec.elem Spec.u16 r.toList j = Spec.elem Spec.u8 a.toList j := by
  obtain ⟨r, h, hr⟩ := u16x16_from_u8x16_eq s a
  refine ⟨r, h, fun j hj => ?_⟩
  rw [elem_u16 r (by omega), elem_u8 a hj, get16_toNat, hr _ (by omega), hr _ (by omega), cvtepu8_lane, cvtepu8_lane,
    if_pos (by omega), if_neg (by omega), show 2 * j / 2 = j by omega]
  simp

end Vsimd
end Simd
