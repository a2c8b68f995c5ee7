import Verif.Lemmas.UnifiedMethods
/-
Lane facts about interleaving and shuffles.
-/
namespace Simd
namespace Vsimd
open Intrin Vs

theorem leNat_congr : ∀ (w : Nat) (f g : Nat → Nat), (∀ k, k < w → f k = g k) → leNat f w = leNat g w
  | 0, _, _, _ => rfl
  | w + 1, f, g, h => by
    rw [leNat, leNat, h 0 (by omega), leNat_congr w _ _ fun k hk => h (k + 1) (by omega)]

theorem getN_congr {n m} {w} {a : Vec n} {b : Vec m} {i j : Nat} (h : ∀ k, k < w → a.lane (w * i + k) = b.lane (w * j + k)) : a.getN w i = b.getN w j := by
  unfold Vec.getN
  rw [leNat_congr w _ _ fun k hk => congrArg BitVec.toNat (h k hk)]

/-! ### Interleaving -/

/-- `Spec.Interleave` on lanes. -/
def VZip {n} (w off : Nat) (a b r : Vec n) : Prop :=
  ∀ h j, h < n / 16 → j < 16 / w / 2 →
    r.getN w (h * (16 / w) + 2 * j) = a.getN w (h * (16 / w) + off + j) ∧
    r.getN w (h * (16 / w) + 2 * j + 1) = b.getN w (h * (16 / w) + off + j)

theorem VZip.spec {n} {w m off} (hm : w * m = 16) (hn : n % 16 = 0) (ho : off + m / 2 ≤ m) {a b r : Vec n} (h : VZip w off a b r) :
    Spec.Interleave w off a.toList b.toList r.toList := by
  have hw : 0 < w := by rcases w with _ | w <;> omega
  have hm' : 16 / w = m := by rw [← hm, Nat.mul_div_cancel_left _ hw]
  refine ⟨by simp, fun k j hk hj => ?_⟩
  rw [Vec.toList_length] at hk
  have := h k j hk hj
  rw [hm'] at this hj ⊢
  have hb : ∀ i, i < m → w * (k * m + i + 1) ≤ n := by
    intro i hi
    have h1 : w * (k * m + i + 1) ≤ w * ((k + 1) * m) := Nat.mul_le_mul_left _ (by rw [Nat.add_mul]; omega)
    have h2 : w * ((k + 1) * m) = (k + 1) * 16 := by rw [← hm]; exact Nat.mul_left_comm ..
    omega
  rw [bits_eq r (by have := hb (2 * j) (by omega); simpa [Nat.add_assoc] using this),
    bits_eq r (by have := hb (2 * j + 1) (by omega); simpa [Nat.add_assoc] using this),
    bits_eq a (by have := hb (off + j) (by omega); simpa [Nat.add_assoc] using this),
    bits_eq b (by have := hb (off + j) (by omega); simpa [Nat.add_assoc] using this), this.1, this.2]
  exact ⟨rfl, rfl⟩

theorem VZip.vop2 {w m off} (hm : w * m = 16) {op : V128 → V128 → Option V128}
    (h : ∀ a b r, op a b = some r → VZip w off a b r) {a b : V256} {r} (hr : vop2 op a b = some r) : VZip w off a b r := by
  have hw : 0 < w := by rcases w with _ | w <;> omega
  have hm' : 16 / w = m := by rw [← hm, Nat.mul_div_cancel_left _ hw]
  obtain ⟨r0, r1, e0, e1, rfl⟩ := vop2_some hr
  intro k j hk hj
  have h0 := h _ _ _ e0 0 j (by decide) hj
  have h1 := h _ _ _ e1 0 j (by decide) hj
  rw [hm'] at h0 h1 hj ⊢
  simp only [Nat.zero_mul, Nat.zero_add] at h0 h1
  rw [getN_join hm, getN_join hm]
  have : k = 0 ∨ k = 1 := by omega
  rcases this with rfl | rfl
  · simp only [Nat.zero_mul, Nat.zero_add]
    rw [if_pos (by omega), if_pos (by omega), h0.1, h0.2]
    exact ⟨rfl, rfl⟩
  · simp only [Nat.one_mul]
    rw [if_neg (by omega), if_neg (by omega), show m + 2 * j - m = 2 * j by omega, show m + 2 * j + 1 - m = 2 * j + 1 by omega, h1.1, h1.2,
      getN_hi hm, getN_hi hm, Nat.add_assoc]
    exact ⟨rfl, rfl⟩

theorem unpackloN_zip {n} {w} (hw : w ∈ [1, 2, 4, 8]) (a b : Vec n) : VZip w 0 a b (unpackloN w a b) := by
  intro h j hh hj
  have hp : 0 < w := by simp at hw; omega
  rw [unpackloN, getN_ofN hp, getN_ofN hp]
  simp only [List.mem_cons, List.not_mem_nil, or_false] at hw
  rcases hw with rfl | rfl | rfl | rfl <;> simp only [Nat.reduceDiv] at hj ⊢ <;> constructor <;>
    first
    | (rw [if_pos (by omega)]; congr 1; omega)
    | (rw [if_neg (by omega)]; congr 1; omega)
theorem unpackhiN_zip {n} {w} (hw : w ∈ [1, 2, 4, 8]) (a b : Vec n) : VZip w (16 / w / 2) a b (unpackhiN w a b) := by
  intro h j hh hj
  have hp : 0 < w := by simp at hw; omega
  rw [unpackhiN, getN_ofN hp, getN_ofN hp]
  simp only [List.mem_cons, List.not_mem_nil, or_false] at hw
  rcases hw with rfl | rfl | rfl | rfl <;> simp only [Nat.reduceDiv] at hj ⊢ <;> constructor <;>
    first
    | (rw [if_pos (by omega)]; congr 1; omega)
    | (rw [if_neg (by omega)]; congr 1; omega)

theorem unpacklo8_eqN {n} (a b : Vec n) : unpacklo8 a b = unpackloN 1 a b := by
  rw [unpackloN, ofN_one]; apply Vec.ext; intro i
  simp only [getN_one, unpacklo8_lane]
theorem unpackhi8_eqN {n} (a b : Vec n) : unpackhi8 a b = unpackhiN 1 a b := by
  rw [unpackhiN, ofN_one]; apply Vec.ext; intro i
  simp only [getN_one, unpackhi8_lane]
theorem unpacklo64_eqN {n} (a b : Vec n) : unpacklo64 a b = unpackloN 8 a b := by
  apply Vec.ext; intro i
  rw [unpackloN, ofN_lane, unpacklo64_lane]
  have h1 := Nat.mod_lt i (show 0 < 8 by decide)
  simp only [Nat.reduceDiv]
  by_cases h : i % 16 < 8
  · rw [if_pos h, if_pos (by omega), byteOf_getN _ _ _ h1]; congr 1; omega
  · rw [if_neg h, if_neg (by omega), byteOf_getN _ _ _ h1]; congr 1; omega

/-- The wasm shuffle with the constants `idx` interleaves from `off`. -/
theorem wasm_zip {w m off} {idx : List Nat} (hm : w * m = 16)
    (hi : ∀ j, j < m / 2 → idx.getD (2 * j) 0 = off + j ∧ idx.getD (2 * j + 1) 0 = m + off + j) (ho : off + m / 2 ≤ m) (a b : V128) :
    VZip w off a b (wasm_shuffle w idx a b) := by
  have hw : 0 < w := by rcases w with _ | w <;> omega
  have hm' : 16 / w = m := by rw [← hm, Nat.mul_div_cancel_left _ hw]
  intro h j hh hj
  have : h = 0 := by omega
  subst this
  simp only [Nat.zero_mul, Nat.zero_add]
  rw [wasm_shuffle, getN_ofN hw, getN_ofN hw]
  rw [hm'] at hj ⊢
  obtain ⟨h1, h2⟩ := hi j hj
  dsimp only
  rw [h1, h2, if_pos (by omega), if_neg (by omega), show m + off + j - m = off + j by omega]
  exact ⟨rfl, rfl⟩

theorem pair64_zip (i : Nat) (a b : V128) : VZip 8 i a b (pair64 i a b) := by
  intro h j hh hj
  have h0 : h = 0 := by omega
  have h1 : j = 0 := by omega
  subst h0; subst h1
  rw [pair64, getN_ofN (by decide), getN_ofN (by decide)]
  simp

end Vsimd
end Simd
