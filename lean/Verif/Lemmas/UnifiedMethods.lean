import Verif.Lemmas.UnifiedOps
/-
The operations of `Verif.Model.Simd` on fixed element types are instances of the element-generic ones.
-/
namespace Simd
open Intrin

theorem toList_getD {n} (v : Vec n) {i} (hi : i < n) : v.toList.getD i 0 = v.lane i := by
  simp [List.getD, Vec.toList, hi]

theorem byteOf_getN {n} {w} (a : Vec n) (j k) (hk : k < w) : byteOf (a.getN w j) k = a.lane (w * j + k) := by
  apply BitVec.eq_of_getLsbD_eq
  intro i hi
  rw [byteOf, BitVec.getLsbD_extractLsb', getN_getLsbD w _ _ _ (by omega)]
  simp only [hi, decide_true, Bool.true_and]
  rw [show (8 * k + i) / 8 = k by omega, show (8 * k + i) % 8 = i by omega]

theorem getN_one {n} (a : Vec n) (j) : a.getN 1 j = a.lane j := by
  apply BitVec.eq_of_toNat_eq
  have := getN_toNat 1 a j
  simp only [leNat] at this
  simpa using this

theorem getN_two {n} (a : Vec n) (j) : a.getN 2 j = a.get16 j := by
  apply BitVec.eq_of_toNat_eq
  have := getN_toNat 2 a j
  simp only [leNat, Nat.add_zero, Nat.zero_add] at this
  rw [this, Vs.get16_toNat]
  omega

theorem getN_four {n} (a : Vec n) (j) : a.getN 4 j = a.get32 j := by
  apply BitVec.eq_of_toNat_eq
  have := getN_toNat 4 a j
  simp only [leNat, Nat.add_zero, Nat.zero_add, Nat.reduceAdd] at this
  rw [this]
  have ht : (a.get32 j).toNat = (((a.lane (4*j+3)).toNat * 256 + (a.lane (4*j+2)).toNat) * 256 + (a.lane (4*j+1)).toNat) * 256 + (a.lane (4*j)).toNat := by
    simp only [Vec.get32, BitVec.toNat_append]
    rw [← Nat.shiftLeft_add_eq_or_of_lt (BitVec.isLt _), ← Nat.shiftLeft_add_eq_or_of_lt (BitVec.isLt _), ← Nat.shiftLeft_add_eq_or_of_lt (BitVec.isLt _)]
    simp only [Nat.shiftLeft_eq]
  rw [ht]; omega

theorem ofN_one {n} (f : Nat → BitVec (8 * 1)) : (Vec.ofN 1 f : Vec n) = ⟨fun i => f i⟩ := by
  apply Vec.ext; intro i
  rw [ofN_lane, Nat.div_one, Nat.mod_one]
  show byteOf (f i) 0 = f i
  apply BitVec.eq_of_getLsbD_eq
  intro k hk
  simp [byteOf, show k < 8 by omega]

theorem map8_eq {n} (f) (a b : Vec n) : map8 f a b = mapN 1 f a b := by
  rw [mapN, ofN_one]
  apply Vec.ext; intro i
  simp only [getN_one]; rfl
theorem map16_eq {n} (f) (a b : Vec n) : map16 f a b = mapN 2 f a b := by
  simp only [mapN, getN_two]; rfl
theorem map32_eq {n} (f) (a b : Vec n) : map32 f a b = mapN 4 f a b := by
  simp only [mapN, getN_four]; rfl

section
variable {n : Nat} (a b : Vec n)
theorem add8_eq : add8 a b = addN 1 a b := map8_eq _ a b
theorem sub8_eq : sub8 a b = subN 1 a b := map8_eq _ a b
theorem sub32_eq : sub32 a b = subN 4 a b := map32_eq _ a b
theorem adds_i8_eq : adds_i8 a b = addsS 1 a b := map8_eq _ a b
theorem adds_u8_eq : adds_u8 a b = addsU 1 a b := map8_eq _ a b
theorem subs_u8_eq : subs_u8 a b = subsU 1 a b := map8_eq _ a b
theorem eq8_eq : eq8 a b = eqN 1 a b := map8_eq _ a b
theorem eq32_eq : eq32 a b = eqN 4 a b := map32_eq _ a b
theorem lt_i8_eq : lt_i8 a b = ltS 1 a b := map8_eq _ a b
theorem lt_i8_eq' : lt_i8 a b = gtS 1 b a := by
  rw [lt_i8_eq]; rfl
theorem lt_u8_eq : lt_u8 a b = ltU 1 a b := map8_eq _ a b
theorem lt_i32_eq : lt_i32 a b = ltS 4 a b := map32_eq _ a b
theorem lt_u32_eq : lt_u32 a b = ltU 4 a b := map32_eq _ a b
theorem max_u8_eq : max_u8 a b = maxU 1 a b := map8_eq _ a b
theorem max_u32_eq : max_u32 a b = maxU 4 a b := map32_eq _ a b
theorem min_u8_eq : min_u8 a b = minU 1 a b := map8_eq _ a b
theorem set1_8_eq (x) : (set1_8 x : Vec n) = set1N 1 x := (ofN_one _).symm
end

namespace Vs

theorem u8x16_add_gen (s : Isa) (a b : V128) : u8x16_add s a b = add128 s .u8 a b := by
  cases s <;> simp only [u8x16_add, t1, Isa.is, add8_eq] <;> rfl
theorem u8x16_sub_gen (s : Isa) (a b : V128) : u8x16_sub s a b = sub128 s .u8 a b := by
  cases s <;> simp only [u8x16_sub, t1, Isa.is, sub8_eq] <;> rfl
theorem u32x4_sub_gen (s : Isa) (a b : V128) : u32x4_sub s a b = sub128 s .u32 a b := by
  cases s <;> simp only [u32x4_sub, t1, Isa.is, sub32_eq] <;> rfl
theorem i8x16_add_sat_gen (s : Isa) (a b : V128) : i8x16_add_sat s a b = add_sat128 s .i8 a b := by
  cases s <;> simp only [i8x16_add_sat, t1, Isa.is, adds_i8_eq] <;> rfl
theorem u8x16_add_sat_gen (s : Isa) (a b : V128) : u8x16_add_sat s a b = add_sat128 s .u8 a b := by
  cases s <;> simp only [u8x16_add_sat, t1, Isa.is, adds_u8_eq] <;> rfl
theorem u8x16_sub_sat_gen (s : Isa) (a b : V128) : u8x16_sub_sat s a b = sub_sat128 s .u8 a b := by
  cases s <;> simp only [u8x16_sub_sat, t1, Isa.is, subs_u8_eq] <;> rfl
theorem u8x16_eq_gen (s : Isa) (a b : V128) : u8x16_eq s a b = eq128 s .u8 a b := by
  cases s <;> simp only [u8x16_eq, t1, Isa.is, eq8_eq] <;> rfl
theorem i8x16_lt_gen (s : Isa) (a b : V128) : i8x16_lt s a b = lt128 s .i8 a b := by
  cases s <;> simp only [i8x16_lt, t1, Isa.is, lt_i8_eq] <;> rfl
theorem u8x16_lt_gen (s : Isa) (a b : V128) : u8x16_lt s a b = lt128 s .u8 a b := by
  cases s <;> simp only [u8x16_lt, Isa.is, lt_u8_eq, eq8_eq, max_u8_eq] <;> rfl
theorem u32x4_lt_gen (s : Isa) (a b : V128) : u32x4_lt s a b = lt128 s .u32 a b := by
  cases s <;> simp only [u32x4_lt, Isa.is, lt_u32_eq, lt_i32_eq] <;> rfl
theorem u8x16_max_gen (s : Isa) (a b : V128) : u8x16_max s a b = max128 s .u8 a b := by
  cases s <;> simp only [u8x16_max, t1, Isa.is, max_u8_eq] <;> rfl
theorem u8x16_min_gen (s : Isa) (a b : V128) : u8x16_min s a b = min128 s .u8 a b := by
  cases s <;> simp only [u8x16_min, t1, Isa.is, min_u8_eq] <;> rfl
theorem u32x4_max_gen (s : Isa) (a b : V128) : u32x4_max s a b = max128 s .u32 a b := by
  cases s <;> simp only [u32x4_max, Isa.is, max_u32_eq] <;> rfl
theorem u8x32_add_gen (s : Isa) (a b : V256) : u8x32_add s a b = add256 s .u8 a b := by
  rw [u8x32_add, show u8x16_add s = add128 s .u8 from funext fun a => funext fun b => u8x16_add_gen s a b]
  cases s <;> simp only [Isa.is, add8_eq] <;> rfl
theorem u8x32_sub_gen (s : Isa) (a b : V256) : u8x32_sub s a b = sub256 s .u8 a b := by
  rw [u8x32_sub, show u8x16_sub s = sub128 s .u8 from funext fun a => funext fun b => u8x16_sub_gen s a b]
  cases s <;> simp only [Isa.is, sub8_eq] <;> rfl
theorem u32x8_sub_gen (s : Isa) (a b : V256) : u32x8_sub s a b = sub256 s .u32 a b := by
  rw [u32x8_sub, show u32x4_sub s = sub128 s .u32 from funext fun a => funext fun b => u32x4_sub_gen s a b]
  cases s <;> simp only [Isa.is, sub32_eq] <;> rfl
theorem i8x32_add_sat_gen (s : Isa) (a b : V256) : i8x32_add_sat s a b = add_sat256 s .i8 a b := by
  rw [i8x32_add_sat, show i8x16_add_sat s = add_sat128 s .i8 from funext fun a => funext fun b => i8x16_add_sat_gen s a b]
  cases s <;> simp only [Isa.is, adds_i8_eq] <;> rfl
theorem u8x32_sub_sat_gen (s : Isa) (a b : V256) : u8x32_sub_sat s a b = sub_sat256 s .u8 a b := by
  rw [u8x32_sub_sat, show u8x16_sub_sat s = sub_sat128 s .u8 from funext fun a => funext fun b => u8x16_sub_sat_gen s a b]
  cases s <;> simp only [Isa.is, subs_u8_eq] <;> rfl
theorem u8x32_eq_gen (s : Isa) (a b : V256) : u8x32_eq s a b = eq256 s .u8 a b := by
  rw [u8x32_eq, show u8x16_eq s = eq128 s .u8 from funext fun a => funext fun b => u8x16_eq_gen s a b]
  cases s <;> simp only [Isa.is, eq8_eq] <;> rfl
theorem i8x32_lt_gen (s : Isa) (a b : V256) : i8x32_lt s a b = lt256 s .i8 a b := by
  rw [i8x32_lt, show i8x16_lt s = lt128 s .i8 from funext fun a => funext fun b => i8x16_lt_gen s a b]
  cases s <;> simp only [Isa.is, lt_i8_eq'] <;> rfl
theorem u8x32_lt_gen (s : Isa) (a b : V256) : u8x32_lt s a b = lt256 s .u8 a b := by
  rw [u8x32_lt, show u8x16_lt s = lt128 s .u8 from funext fun a => funext fun b => u8x16_lt_gen s a b]
  cases s <;> simp only [Isa.is, eq8_eq, max_u8_eq] <;> rfl
theorem u32x8_lt_gen (s : Isa) (a b : V256) : u32x8_lt s a b = lt256 s .u32 a b := by
  rw [u32x8_lt, show u32x4_lt s = lt128 s .u32 from funext fun a => funext fun b => u32x4_lt_gen s a b]
  cases s <;> simp only [Isa.is, eq32_eq, max_u32_eq] <;> rfl
theorem u32x8_max_gen (s : Isa) (a b : V256) : u32x8_max s a b = max256 s .u32 a b := by
  rw [u32x8_max, show u32x4_max s = max128 s .u32 from funext fun a => funext fun b => u32x4_max_gen s a b]
  cases s <;> simp only [Isa.is, max_u32_eq] <;> rfl

/-- A returning `simd256_vop!` joins the two returned halves. -/
theorem vop2_some {f : V128 → V128 → Option V128} {a b : V256} {r} (h : vop2 f a b = some r) :
    ∃ r0 r1, f a.lo b.lo = some r0 ∧ f a.hi b.hi = some r1 ∧ r = join r0 r1 := by
  simp only [vop2, Option.bind_eq_bind, Option.pure_def, Option.bind_eq_some_iff] at h
  obtain ⟨c0, h0, c1, h1, h2⟩ := h
  exact ⟨c0, c1, h0, h1, (Option.some.inj h2).symm⟩

end Vs
end Simd
