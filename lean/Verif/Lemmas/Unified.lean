import Verif.Model.Unified
import Verif.Spec.Lane
import Verif.Lemmas.Scalable
/-
Lane-level facts about the element-generic operations.
-/
namespace Simd
open Intrin

theorem leNat_lt (w : Nat) : ∀ (f : Nat → Nat), (∀ k, f k < 256) → leNat f w < 2 ^ (8 * w) := by
  induction w with
  | zero => intro f _; simp [leNat]
  | succ w ih =>
    intro f hf
    have h1 := ih (fun k => f (k + 1)) (fun k => hf _)
    have h2 := hf 0
    rw [leNat, show 8 * (w + 1) = 8 * w + 8 by omega, Nat.pow_add]
    have : (2:Nat) ^ 8 = 256 := rfl
    omega

theorem leNat_testBit (w : Nat) : ∀ (f : Nat → Nat), (∀ k, f k < 256) → ∀ i, i < 8 * w →
    (leNat f w).testBit i = (f (i / 8)).testBit (i % 8) := by
  induction w with
  | zero => intro f _ i hi; omega
  | succ w ih =>
    intro f hf i hi
    rw [leNat, Nat.add_comm, show 256 = 2 ^ 8 from rfl, Nat.testBit_two_pow_mul_add _ (hf 0)]
    split
    · rename_i h
      rw [show i / 8 = 0 by omega, show i % 8 = i by omega]
    · rename_i h
      rw [ih _ (fun k => hf _) _ (by omega), show (i - 8) / 8 + 1 = i / 8 by omega, show (i - 8) % 8 = i % 8 by omega]

theorem getN_getLsbD {n} (w) (a : Vec n) (j i) (hi : i < 8 * w) :
    (a.getN w j).getLsbD i = (a.lane (w * j + i / 8)).getLsbD (i % 8) := by
  simp only [Vec.getN, BitVec.getLsbD_ofNat, hi, decide_true, Bool.true_and]
  rw [leNat_testBit w _ (fun k => (a.lane _).isLt) i hi]
  rfl

theorem getN_toNat {n} (w) (a : Vec n) (j) : (a.getN w j).toNat = leNat (fun k => (a.lane (w * j + k)).toNat) w := by
  rw [Vec.getN, BitVec.toNat_ofNat, Nat.mod_eq_of_lt (leNat_lt w _ fun k => (a.lane _).isLt)]

theorem ofN_lane {n} (w f i) : (Vec.ofN w f : Vec n).lane i = byteOf (f (i / w)) (i % w) := id rfl

theorem getN_ofN {n} {w} (hw : 0 < w) (f j) : (Vec.ofN w f : Vec n).getN w j = f j := by
  apply BitVec.eq_of_getLsbD_eq
  intro i hi
  rw [getN_getLsbD w _ j i hi, ofN_lane]
  have h1 : i / 8 < w := by omega
  have h2 : (w * j + i / 8) / w = j := by
    rw [Nat.mul_add_div hw, Nat.div_eq_of_lt h1, Nat.add_zero]
  have h3 : (w * j + i / 8) % w = i / 8 := by rw [Nat.mul_add_mod, Nat.mod_eq_of_lt h1]
  rw [h2, h3, byteOf, BitVec.getLsbD_extractLsb']
  simp [Nat.mod_lt, show 8 * (i / 8) + i % 8 = i by omega]

/-- Lanes of the element-wise combination. -/
theorem getN_mapN {n} {w} (hw : 0 < w) (f) (a b : Vec n) (j) : (mapN w f a b).getN w j = f (a.getN w j) (b.getN w j) :=
  getN_ofN hw _ j

theorem getN_xor {n} (w) (a b : Vec n) (j) : (Intrin.xor a b).getN w j = a.getN w j ^^^ b.getN w j := by
  apply BitVec.eq_of_getLsbD_eq
  intro i hi
  rw [BitVec.getLsbD_xor, getN_getLsbD w _ j i hi, getN_getLsbD w _ j i hi, getN_getLsbD w _ j i hi]
  simp [Intrin.xor]

theorem getN_set1N {n} {w} (hw : 0 < w) (x j) : (set1N w x : Vec n).getN w j = x := getN_ofN hw _ j

/-- A vector is determined by its `w`-byte lanes. -/
theorem ofN_getN {n} {w} (hw : 0 < w) (a : Vec n) : Vec.ofN w (fun j => a.getN w j) = a := by
  apply Vec.ext; intro i
  rw [ofN_lane]
  apply BitVec.eq_of_getLsbD_eq
  intro k hk
  have hm := Nat.mod_lt i hw
  rw [byteOf, BitVec.getLsbD_extractLsb', getN_getLsbD w _ _ _ (by omega)]
  simp only [hk, decide_true, Bool.true_and]
  rw [show (8 * (i % w) + k) / 8 = i % w by omega, show (8 * (i % w) + k) % 8 = k by omega, Nat.div_add_mod]

theorem getN_lo (w) (a : V256) (j) : a.lo.getN w j = a.getN w j := id rfl
theorem getN_hi {w m} (hm : w * m = 16) (a : V256) (j) : a.hi.getN w j = a.getN w (m + j) := by
  unfold Vec.getN
  congr 2; funext k
  rw [hi_lane, Nat.mul_add, hm, Nat.add_assoc]
theorem getN_join {w m} (hm : w * m = 16) (a b : V128) (j) :
    (join a b).getN w j = if j < m then a.getN w j else b.getN w (j - m) := by
  have hw : 0 < w := by rcases w with _ | w <;> omega
  apply BitVec.eq_of_getLsbD_eq
  intro i hi
  rw [getN_getLsbD w _ j i hi, join_lane]
  have h1 : i / 8 < w := by omega
  split
  · rename_i h
    have : j < m := by
      rcases Nat.lt_or_ge j m with h' | h'
      · exact h'
      · have := Nat.mul_le_mul_left w h'; omega
    rw [if_pos this, getN_getLsbD w _ j i hi]
  · rename_i h
    have : ¬ j < m := by
      intro h'
      have := Nat.mul_le_mul_left w (show j + 1 ≤ m by omega)
      rw [Nat.mul_add] at this; omega
    rw [if_neg this, getN_getLsbD w _ _ i hi]
    congr 2
    have h5 := Nat.mul_sub w j m
    have := Nat.mul_le_mul_left w (show m ≤ j by omega)
    omega

/-- `r` has the `w`-byte lanes `f a b`. -/
def Lw {n} (w : Nat) (f : BitVec (8 * w) → BitVec (8 * w) → BitVec (8 * w)) (a b r : Vec n) : Prop :=
  ∀ j, r.getN w j = f (a.getN w j) (b.getN w j)

theorem Lw.mapN {n} {w} (hw : 0 < w) (f) (a b : Vec n) : Lw w f a b (mapN w f a b) := fun j => getN_mapN hw f a b j

theorem Lw.join {w m} (hm : w * m = 16) {f} {a b : V256} {r0 r1 : V128} (h0 : Lw w f a.lo b.lo r0) (h1 : Lw w f a.hi b.hi r1) :
    Lw w f a b (join r0 r1) := by
  intro j
  rw [getN_join hm]
  split
  · rw [h0 j, getN_lo, getN_lo]
  · rw [h1 (j - m), getN_hi hm, getN_hi hm, show m + (j - m) = j by omega]

/-- `simd256_vop!` preserves a lane-wise description. -/
theorem Lw.vop2 {w m} (hm : w * m = 16) {f} {op : V128 → V128 → Option V128}
    (h : ∀ a b r, op a b = some r → Lw w f a b r) {a b : V256} {r} (hr : Vs.vop2 op a b = some r) : Lw w f a b r := by
  simp only [Vs.vop2, Option.bind_eq_bind, Option.pure_def, Option.bind_eq_some_iff] at hr
  obtain ⟨c0, h0, c1, h1, h2⟩ := hr
  injection h2 with h2; subst h2
  exact .join hm (h _ _ _ h0) (h _ _ _ h1)

theorem vop2_isSome {op : V128 → V128 → Option V128} {p : Bool} (h : ∀ a b, (op a b).isSome = p) (a b) :
    (Vs.vop2 op a b).isSome = p := by
  have h1 := h a.lo b.lo
  have h2 := h a.hi b.hi
  simp only [Vs.vop2]
  rcases h3 : op a.lo b.lo with _ | x
  · rw [h3] at h1; simpa using h1
  · rw [h3] at h1
    rcases h4 : op a.hi b.hi with _ | y
    · rw [h4] at h2; simpa using h2
    · rw [h4] at h2; simpa using h2

theorem Elem.bytes_pos (t : Elem) : 0 < t.bytes := by cases t <;> decide
theorem Elem.bytes_mul (t : Elem) : t.bytes * (16 / t.bytes) = 16 := by cases t <;> decide

/-! ### Spec side -/

theorem leValue_eq (w : Nat) : ∀ (f : Nat → Byte) (xs : List Byte), xs.length = w → (∀ k, (h : k < xs.length) → xs[k] = f k) →
    Spec.leValue xs = leNat (fun k => (f k).toNat) w := by
  induction w with
  | zero => intro f xs h _; rw [List.length_eq_zero_iff.1 h]; rfl
  | succ w ih =>
    intro f xs h hf
    rcases xs with _ | ⟨x, xs⟩
    · simp at h
    · have h0 := hf 0 (by simp)
      simp only [List.getElem_cons_zero] at h0
      rw [Spec.leValue, leNat, ih (fun k => f (k + 1)) xs (by simpa using h) (fun k hk => by
        have := hf (k + 1) (by simpa using hk)
        simpa using this), h0]

theorem bits_eq {n} {w} (a : Vec n) {j} (hj : w * (j + 1) ≤ n) : Spec.bits w a.toList j = (a.getN w j).toNat := by
  rw [getN_toNat, Spec.bits]
  have : w * (j + 1) = w * j + w := by rw [Nat.mul_add, Nat.mul_one]
  apply leValue_eq w (fun k => a.lane (w * j + k))
  · simp; omega
  · intro k hk
    simp [Vec.toList_getElem]

theorem lane_in {n w j : Nat} (h : j < n / w) : w * (j + 1) ≤ n :=
  Nat.le_trans (Nat.mul_le_mul_left _ h) (Nat.mul_div_le n w)

/-- The value of a lane as an integer of type `t`. -/
def valOf (sg : Bool) {w : Nat} (x : BitVec w) : Int := if sg then x.toInt else x.toNat

theorem ofBits_eq {t : Spec.Ty} (hw : 0 < t.bytes) (x : BitVec (8 * t.bytes)) : t.ofBits x.toNat = valOf t.signed x := by
  obtain ⟨w, sg⟩ := t
  simp only [Spec.Ty.ofBits, valOf] at *
  cases sg
  · simp
  · simp only [true_and, if_true]
    rw [BitVec.toInt_eq_toNat_cond]
    have h : 2 ^ (8 * w) = 2 * 2 ^ (8 * w - 1) := by
      rw [← Nat.pow_succ']; congr 1; omega
    have h' : ((2 ^ (8 * w) : Nat) : Int) = 2 ^ (8 * w) := by push_cast; rfl
    split <;> split <;> omega

theorem elem_eq {n} {t : Spec.Ty} (hw : 0 < t.bytes) (a : Vec n) {j} (hj : j < n / t.bytes) :
    Spec.elem t a.toList j = valOf t.signed (a.getN t.bytes j) := by
  rw [Spec.elem, bits_eq a (lane_in hj), ofBits_eq hw]

theorem Lw.zip {n} {t : Spec.Ty} (hw : 0 < t.bytes) {f} {g : Int → Int → Int} {a b r : Vec n} (h : Lw t.bytes f a b r)
    (hfg : ∀ x y, valOf t.signed (f x y) = g (valOf t.signed x) (valOf t.signed y)) : Spec.Zip t g a.toList b.toList r.toList := by
  refine ⟨by simp, fun j hj => ?_⟩
  rw [Vec.toList_length] at hj
  rw [elem_eq hw a hj, elem_eq hw b hj, elem_eq hw r hj, h j, hfg]

theorem Lw.cmp {n} {t : Spec.Ty} (hw : 0 < t.bytes) {f} {p : Int → Int → Bool} {a b r : Vec n} (h : Lw t.bytes f a b r)
    (hfg : ∀ x y, f x y = maskOf _ (p (valOf t.signed x) (valOf t.signed y))) : Spec.Cmp t p a.toList b.toList r.toList := by
  refine ⟨by simp, fun j hj => ?_⟩
  rw [Vec.toList_length] at hj
  rw [elem_eq hw a hj, elem_eq hw b hj, bits_eq r (lane_in hj), h j, hfg, maskOf, Spec.Ty.mask]
  split <;> simp

end Simd
