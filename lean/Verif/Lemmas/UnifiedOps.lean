import Verif.Lemmas.Unified
import Verif.Lemmas.Utf32
/-
Integer meaning of the lane functions, and the lane function of every element-generic operation on every
instruction set.
-/
namespace Simd
open Intrin

/-- Signedness of the element types. -/
def Elem.signed : Elem → Bool
  | .u8 | .u16 | .u32 | .u64 => false
  | .i8 | .i16 | .i32 | .i64 => true

/-- The integer type of an element type. -/
def Elem.ty (t : Elem) : Spec.Ty := ⟨t.bytes, t.signed⟩

theorem pow_half {w : Nat} (hw : 0 < w) : (2:Int) ^ (8 * w) = 2 * 2 ^ (8 * w - 1) := by
  rw [← Int.pow_succ']; congr 1; omega

theorem wrap_signed (z h : Int) (hh : 0 < h) (m : Nat) (hm : (m : Int) = 2 * h) : (z + h) % (2 * h) - h = Int.bmod z m := by
  rw [Int.bmod_def, hm]
  have h1 := Int.emod_nonneg z (show 2 * h ≠ 0 by omega)
  have h2 := Int.emod_lt_of_pos z (show 0 < 2 * h by omega)
  have h3 : (z + h) % (2 * h) = (z % (2 * h) + h) % (2 * h) := by simp [Int.add_emod]
  rw [h3]
  split
  · rename_i h4
    rw [Int.emod_eq_of_lt (by omega) (by omega)]; omega
  · rename_i h4
    rw [show z % (2 * h) + h = (z % (2 * h) - h) + 2 * h by omega, Int.add_emod_right, Int.emod_eq_of_lt (by omega) (by omega)]
    omega

/-- Truncation of an integer to a lane is wrap-around. -/
theorem valOf_ofInt {t : Spec.Ty} (hw : 0 < t.bytes) (z : Int) : valOf t.signed (BitVec.ofInt (8 * t.bytes) z) = t.wrap z := by
  obtain ⟨w, sg⟩ := t
  simp only [Spec.Ty.wrap, valOf, Spec.Ty.lo] at *
  cases sg
  · simp only [Bool.false_eq_true, if_false, Int.sub_zero, Int.add_zero, BitVec.toNat_ofInt]
    rw [Int.toNat_of_nonneg (Int.emod_nonneg _ (by positivity))]
    push_cast; rfl
  · simp only [if_true, BitVec.toInt_ofInt]
    rw [← wrap_signed z (2 ^ (8 * w - 1)) (by positivity) _ (by push_cast; exact pow_half hw), pow_half hw]
    have : z - -2 ^ (8 * w - 1) = z + 2 ^ (8 * w - 1) := by omega
    rw [this]; omega

theorem ofInt_valOf (sg : Bool) {w} (x : BitVec w) : BitVec.ofInt w (valOf sg x) = x := by
  cases sg <;> simp [valOf]

theorem valOf_mem {t : Spec.Ty} (hw : 0 < t.bytes) (x : BitVec (8 * t.bytes)) : t.lo ≤ valOf t.signed x ∧ valOf t.signed x ≤ t.hi := by
  obtain ⟨w, sg⟩ := t
  simp only [valOf, Spec.Ty.lo, Spec.Ty.hi] at *
  cases sg
  · have : x.toNat < 2 ^ (8 * w) := x.isLt
    have h' : ((2 ^ (8 * w) : Nat) : Int) = 2 ^ (8 * w) := by push_cast; rfl
    simp only [Bool.false_eq_true, if_false]
    omega
  · have h1 : -2 ^ (8 * w - 1) ≤ x.toInt := BitVec.le_toInt x
    have h2 : x.toInt < 2 ^ (8 * w - 1) := BitVec.toInt_lt (x := x)
    simp only [if_true]
    omega

theorem wrap_of_mem {t : Spec.Ty} (hw : 0 < t.bytes) {z : Int} (h1 : t.lo ≤ z) (h2 : z ≤ t.hi) : t.wrap z = z := by
  rw [Spec.Ty.wrap, Int.emod_eq_of_lt (by omega)]
  · omega
  · have := pow_half hw
    obtain ⟨w, sg⟩ := t
    simp only [Spec.Ty.lo, Spec.Ty.hi] at *
    cases sg <;> simp at * <;> omega

theorem lo_le_hi {t : Spec.Ty} (hw : 0 < t.bytes) : t.lo ≤ t.hi := by
  have := valOf_mem hw (0 : BitVec _); omega

theorem valOf_add {t : Spec.Ty} (hw : 0 < t.bytes) (x y : BitVec (8 * t.bytes)) : valOf t.signed (x + y) = t.wrap (valOf t.signed x + valOf t.signed y) := by
  rw [← valOf_ofInt hw, BitVec.ofInt_add, ofInt_valOf, ofInt_valOf]
theorem valOf_mul {t : Spec.Ty} (hw : 0 < t.bytes) (x y : BitVec (8 * t.bytes)) : valOf t.signed (x * y) = t.wrap (valOf t.signed x * valOf t.signed y) := by
  rw [← valOf_ofInt hw, BitVec.ofInt_mul, ofInt_valOf, ofInt_valOf]
theorem valOf_sub {t : Spec.Ty} (hw : 0 < t.bytes) (x y : BitVec (8 * t.bytes)) : valOf t.signed (x - y) = t.wrap (valOf t.signed x - valOf t.signed y) := by
  rw [← valOf_ofInt hw, Int.sub_eq_add_neg, BitVec.ofInt_add, BitVec.ofInt_neg, ofInt_valOf, ofInt_valOf, BitVec.sub_eq_add_neg]

theorem valOf_clamp {t : Spec.Ty} (hw : 0 < t.bytes) (z : Int) :
    valOf t.signed (BitVec.ofInt (8 * t.bytes) (t.clamp z)) = t.clamp z := by
  have := lo_le_hi hw
  rw [valOf_ofInt hw, wrap_of_mem hw] <;> simp only [Spec.Ty.clamp] <;> omega

theorem valOf_inj (sg : Bool) {w} {x y : BitVec w} : valOf sg x = valOf sg y ↔ x = y := by
  constructor
  · intro h; rw [← ofInt_valOf sg x, ← ofInt_valOf sg y, h]
  · rintro rfl; rfl

/-- `<` at the signedness `sg`. -/
def ltB (sg : Bool) {w} (x y : BitVec w) : Bool := if sg then x.slt y else x.ult y

theorem ltB_iff (sg : Bool) {w} (x y : BitVec w) : ltB sg x y = decide (valOf sg x < valOf sg y) := by
  cases sg
  · simp [ltB, valOf, BitVec.ult]
  · simp [ltB, valOf, BitVec.slt]

/-! ### Equality of masks obtained indirectly -/

theorem lt_via_max {w} (x y : BitVec w) : maskOf w (x == if x.ult y then y else x) ^^^ maskOf w (x == x) = maskOf w (x.ult y) := by
  by_cases h : x.ult y = true
  · have : x ≠ y := by rintro rfl; simp [BitVec.ult] at h
    simp [h, maskOf, this]
  · simp [h, maskOf]

theorem xor_msb16_toNat (x : BitVec 16) : (x ^^^ 0x8000#16).toNat = (x.toNat + 2 ^ 15) % 2 ^ 16 := by
  have hx := x.isLt
  rw [BitVec.toNat_xor]
  have h1 : (x.toNat ^^^ (0x8000#16).toNat) % 2 ^ 15 = x.toNat % 2 ^ 15 := by
    rw [Nat.xor_mod_two_pow]; simp
  have h2 : (x.toNat ^^^ (0x8000#16).toNat) / 2 ^ 15 = (x.toNat / 2 ^ 15) ^^^ 1 := by
    rw [← Nat.shiftRight_eq_div_pow, Nat.shiftRight_xor_distrib, Nat.shiftRight_eq_div_pow]; rfl
  have h3 : x.toNat / 2 ^ 15 = 0 ∨ x.toNat / 2 ^ 15 = 1 := by omega
  rcases h3 with h3 | h3 <;> rw [h3] at h2 <;> simp only [Nat.zero_xor, Nat.xor_self] at h2 <;> omega

theorem slt_flip16 (x y : BitVec 16) : (x ^^^ 0x8000#16).slt (y ^^^ 0x8000#16) = x.ult y := by
  have hx := x.isLt; have hy := y.isLt
  have h1 := xor_msb16_toNat x; have h2 := xor_msb16_toNat y
  rw [Bool.eq_iff_iff, BitVec.slt_iff_toInt_lt, BitVec.ult_iff_toNat_lt, BitVec.toInt_eq_toNat_cond, BitVec.toInt_eq_toNat_cond, h1, h2]
  split <;> split <;> omega

/-- The binary element-wise operations of unified.rs. -/
inductive Op2 where
  | add | sub | eq | lt | addSat | subSat | max | min
deriving DecidableEq, Repr

/-- The operation on `V128`. -/
def Op2.run128 : Op2 → Isa → Elem → V128 → V128 → Option V128
  | .add => Vs.add128 | .sub => Vs.sub128 | .eq => Vs.eq128 | .lt => Vs.lt128
  | .addSat => Vs.add_sat128 | .subSat => Vs.sub_sat128 | .max => Vs.max128 | .min => Vs.min128
/-- The operation on `V256`. -/
def Op2.run256 : Op2 → Isa → Elem → V256 → V256 → Option V256
  | .add => Vs.add256 | .sub => Vs.sub256 | .eq => Vs.eq256 | .lt => Vs.lt256
  | .addSat => Vs.add_sat256 | .subSat => Vs.sub_sat256 | .max => Vs.max256 | .min => Vs.min256

/-- Its lane function. -/
def Op2.laneFn (op : Op2) (t : Elem) (x y : BitVec (8 * t.bytes)) : BitVec (8 * t.bytes) :=
  match op with
  | .add => x + y
  | .sub => x - y
  | .eq => maskOf _ (x == y)
  | .lt => maskOf _ (ltB t.signed x y)
  | .addSat => BitVec.ofInt _ (t.ty.clamp (valOf t.signed x + valOf t.signed y))
  | .subSat => BitVec.ofInt _ (t.ty.clamp (valOf t.signed x - valOf t.signed y))
  | .max => if ltB t.signed x y then y else x
  | .min => if ltB t.signed x y then x else y

theorem addsU_clamp (w : Nat) (x y : BitVec (8 * w)) : BitVec.ofNat (8 * w) (min (2 ^ (8 * w) - 1) (x.toNat + y.toNat)) =
    BitVec.ofInt (8 * w) ((⟨w, false⟩ : Spec.Ty).clamp ((x.toNat : Int) + y.toNat)) := by
  have h : ((⟨w, false⟩ : Spec.Ty).clamp ((x.toNat : Int) + y.toNat)) = ((min (2 ^ (8 * w) - 1) (x.toNat + y.toNat) : Nat) : Int) := by
    have h' : ((2 ^ (8 * w) : Nat) : Int) = 2 ^ (8 * w) := by push_cast; rfl
    have := Nat.two_pow_pos (8 * w)
    simp only [Spec.Ty.clamp, Spec.Ty.lo, Spec.Ty.hi, Bool.false_eq_true, if_false]
    omega
  rw [h, BitVec.ofInt_natCast]

theorem subsU_clamp (w : Nat) (x y : BitVec (8 * w)) : BitVec.ofNat (8 * w) (x.toNat - y.toNat) =
    BitVec.ofInt (8 * w) ((⟨w, false⟩ : Spec.Ty).clamp ((x.toNat : Int) - y.toNat)) := by
  have h : ((⟨w, false⟩ : Spec.Ty).clamp ((x.toNat : Int) - y.toNat)) = ((x.toNat - y.toNat : Nat) : Int) := by
    have h' : ((2 ^ (8 * w) : Nat) : Int) = 2 ^ (8 * w) := by push_cast; rfl
    have := x.isLt
    simp only [Spec.Ty.clamp, Spec.Ty.lo, Spec.Ty.hi, Bool.false_eq_true, if_false]
    omega
  rw [h, BitVec.ofInt_natCast]

section
variable {n : Nat} (a b : Vec n)
theorem lw_addsU {w} (hw : 0 < w) : Lw w (fun x y => BitVec.ofInt (8 * w) ((⟨w, false⟩ : Spec.Ty).clamp ((x.toNat : Int) + y.toNat))) a b (addsU w a b) := by
  intro j; rw [addsU, getN_mapN hw, addsU_clamp]
theorem lw_subsU {w} (hw : 0 < w) : Lw w (fun x y => BitVec.ofInt (8 * w) ((⟨w, false⟩ : Spec.Ty).clamp ((x.toNat : Int) - y.toNat))) a b (subsU w a b) := by
  intro j; rw [subsU, getN_mapN hw, subsU_clamp]
theorem lw_lt_max {w} (hw : 0 < w) : Lw w (fun x y => maskOf _ (x.ult y)) a b (Intrin.xor (eqN w a (maxU w a b)) (eqN w a a)) := by
  intro j; rw [getN_xor, eqN, eqN, getN_mapN hw, getN_mapN hw, maxU, getN_mapN hw, lt_via_max]
theorem lw_lt_flip16 : Lw 2 (fun x y => maskOf _ (x.ult y)) a b
    (ltS 2 (Intrin.xor a (set1N 2 0x8000#16)) (Intrin.xor b (set1N 2 0x8000#16))) := by
  intro j; rw [ltS, getN_mapN (by decide), getN_xor, getN_xor, getN_set1N (by decide)]
  exact congrArg (maskOf 16) (slt_flip16 _ _)
theorem lw_lt_flip32 : Lw 4 (fun x y => maskOf _ (x.ult y)) a b
    (ltS 4 (Intrin.xor a (set1N 4 0x80000000#32)) (Intrin.xor b (set1N 4 0x80000000#32))) := by
  intro j; rw [ltS, getN_mapN (by decide), getN_xor, getN_xor, getN_set1N (by decide)]
  exact congrArg (maskOf 32) (Vs.slt_flip _ _)
end

/-- The right-hand sides of the branches of an operation on `t`. -/
def Op2.Branch (op : Op2) (t : Elem) {n} (a b r : Vec n) : Prop :=
  let w := t.bytes
  match op with
  | .add => r = addN w a b
  | .sub => r = subN w a b
  | .eq => r = eqN w a b
  | .lt => (t.signed = true ∧ (r = ltS w a b ∨ r = gtS w b a)) ∨ (t.signed = false ∧ (r = ltU w a b ∨ r = Intrin.xor (eqN w a (maxU w a b)) (eqN w a a)))
    ∨ (t = .u16 ∧ r = ltS 2 (Intrin.xor a (set1N 2 0x8000#16)) (Intrin.xor b (set1N 2 0x8000#16)))
    ∨ (t = .u32 ∧ r = ltS 4 (Intrin.xor a (set1N 4 0x80000000#32)) (Intrin.xor b (set1N 4 0x80000000#32)))
  | .addSat => r = if t.signed then addsS w a b else addsU w a b
  | .subSat => r = if t.signed then subsS w a b else subsU w a b
  | .max => r = if t.signed then maxS w a b else maxU w a b
  | .min => r = if t.signed then minS w a b else minU w a b

theorem ty_eq {t : Elem} {sg} (h : t.signed = sg) : t.ty = ⟨t.bytes, sg⟩ := by rw [Elem.ty, h]

theorem Op2.Branch.lw {op : Op2} {t : Elem} {n} {a b r : Vec n} (h : op.Branch t a b r) : Lw t.bytes (op.laneFn t) a b r := by
  have hw := t.bytes_pos
  cases op
  case add => subst h; exact Lw.mapN hw _ a b
  case sub => subst h; exact Lw.mapN hw _ a b
  case eq => subst h; exact Lw.mapN hw _ a b
  case lt =>
    rcases h with ⟨hs, rfl | rfl⟩ | ⟨hs, rfl | rfl⟩ | ⟨rfl, rfl⟩ | ⟨rfl, rfl⟩
    · intro j; rw [ltS, getN_mapN hw]; simp [laneFn, ltB, hs]
    · intro j; rw [gtS, getN_mapN hw]; simp [laneFn, ltB, hs]
    · intro j; rw [ltU, getN_mapN hw]; simp [laneFn, ltB, hs]
    · intro j; rw [lw_lt_max a b hw j]; simp [laneFn, ltB, hs]
    · exact lw_lt_flip16 a b
    · exact lw_lt_flip32 a b
  case addSat =>
    intro j
    cases hs : t.signed
    · simp only [Branch, hs, Bool.false_eq_true, if_false] at h
      rw [h, lw_addsU a b hw j]; simp only [laneFn, ty_eq hs, valOf, hs, Bool.false_eq_true, if_false]
    · simp only [Branch, hs, if_true] at h
      rw [h, addsS, getN_mapN hw]
      simp only [laneFn, ty_eq hs, valOf, hs, if_true, satS, Spec.Ty.clamp, Spec.Ty.lo, Spec.Ty.hi]
  case subSat =>
    intro j
    cases hs : t.signed
    · simp only [Branch, hs, Bool.false_eq_true, if_false] at h
      rw [h, lw_subsU a b hw j]; simp only [laneFn, ty_eq hs, valOf, hs, Bool.false_eq_true, if_false]
    · simp only [Branch, hs, if_true] at h
      rw [h, subsS, getN_mapN hw]
      simp only [laneFn, ty_eq hs, valOf, hs, if_true, satS, Spec.Ty.clamp, Spec.Ty.lo, Spec.Ty.hi]
  case max =>
    intro j
    cases hs : t.signed
    · simp only [Branch, hs, Bool.false_eq_true, if_false] at h
      rw [h, maxU, getN_mapN hw]; simp [laneFn, ltB, hs]
    · simp only [Branch, hs, if_true] at h
      rw [h, maxS, getN_mapN hw]; simp [laneFn, ltB, hs]
  case min =>
    intro j
    cases hs : t.signed
    · simp only [Branch, hs, Bool.false_eq_true, if_false] at h
      rw [h, minU, getN_mapN hw]; simp [laneFn, ltB, hs]
    · simp only [Branch, hs, if_true] at h
      rw [h, minS, getN_mapN hw]; simp [laneFn, ltB, hs]

/-- Every branch of every 128-bit operation is one of these. -/
theorem run128_branch (op : Op2) (s : Isa) (t : Elem) (a b r : V128) (h : op.run128 s t a b = some r) : op.Branch t a b r := by
  cases op <;> cases t <;> cases s <;> first
    | exact absurd (show (none : Option V128) = some r from h) (Option.some_ne_none r).symm
    | (obtain rfl := Option.some.inj h
       simp [Op2.Branch, Elem.bytes, Elem.signed])

theorem run128_lw (op : Op2) (s : Isa) (t : Elem) (a b r : V128) (h : op.run128 s t a b = some r) :
    Lw t.bytes (op.laneFn t) a b r := (run128_branch op s t a b r h).lw

theorem run256_lw (op : Op2) (s : Isa) (t : Elem) (a b r : V256) (h : op.run256 s t a b = some r) :
    Lw t.bytes (op.laneFn t) a b r := by
  have key : op.run256 s t a b = Vs.vop2 (op.run128 s t) a b ∨ op.Branch t a b r := by
    cases op <;> cases t <;> cases s <;> first
      | exact .inl rfl
      | (refine .inr ?_
         obtain rfl := Option.some.inj h
         simp [Op2.Branch, Elem.bytes, Elem.signed])
  rcases key with key | key
  · rw [key] at h
    exact Lw.vop2 t.bytes_mul (run128_lw op s t) h
  · exact key.lw

end Simd
