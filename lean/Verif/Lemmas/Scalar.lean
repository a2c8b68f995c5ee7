import Verif.Model.Base64
import Verif.Lemmas.Lanes
/-
Scalar building blocks shared by base64 and base32: big-endian integers, table-driven write loops and
table-driven accumulation loops.
-/
namespace Simd
open Base64

/-- Value of big-endian bytes. -/
def beNat (bs : List Byte) : Nat := bs.foldl (fun a b => a * 256 + b.toNat) 0

theorem zext_toNat {w} (b : Byte) : (b.zeroExtend w).toNat = b.toNat % 2 ^ w := BitVec.toNat_setWidth ..

theorem ofBE_step {w} (a : BitVec w) (b : Byte) (h : a.toNat * 256 + 256 ≤ 2 ^ w) :
    ((a <<< 8) ||| b.zeroExtend w).toNat = a.toNat * 256 + b.toNat := by
  have hb := b.isLt
  rw [BitVec.toNat_or, BitVec.toNat_shiftLeft, zext_toNat, Nat.shiftLeft_eq,
    Nat.mod_eq_of_lt (by omega), Nat.mod_eq_of_lt (by omega), ← Nat.shiftLeft_eq, ← Nat.shiftLeft_add_eq_or_of_lt hb, Nat.shiftLeft_eq]

theorem ofBE_fold {w} : ∀ (bs : List Byte) (a : BitVec w) (k : Nat), a.toNat < 256 ^ k → 8 * (k + bs.length) ≤ w → 
    (bs.foldl (fun (a : BitVec w) b => (a <<< 8) ||| b.zeroExtend w) a).toNat = bs.foldl (fun a b => a * 256 + b.toNat) a.toNat
  | [], a, k, h, hw => rfl
  | b :: bs, a, k, h, hw => by
    simp only [List.length_cons] at hw
    have hp : 256 ^ (k + 1) ≤ 2 ^ w := by
      rw [show (256 : Nat) = 2 ^ 8 by omega, ← Nat.pow_mul]
      exact Nat.pow_le_pow_right (by omega) (by omega)
    have hp' : 256 ^ k * 256 ≤ 2 ^ w := hp
    have hs := ofBE_step a b (Nat.le_trans (by rw [← Nat.succ_mul]; exact Nat.mul_le_mul_right 256 h) hp')
    have hb := b.isLt
    rw [List.foldl_cons, List.foldl_cons, ofBE_fold bs _ (k + 1) (by rw [hs]; exact Nat.lt_of_lt_of_le (show _ < (a.toNat + 1) * 256 by omega) (Nat.mul_le_mul_right 256 h)) (by omega), hs]

theorem ofBE_toNat {w} (bs : List Byte) (h : 8 * bs.length ≤ w) : (ofBE w bs).toNat = beNat bs := by
  have := ofBE_fold bs (0 : BitVec w) 0 (by simp) (by omega)
  simpa [ofBE, beNat] using this

/-- A loop that looks up `f i` in a table and writes the result. -/
theorem write_loop_wp (cs : List Byte) (f : Nat → Nat) {q : Ptr} {E} : ∀ (n i : Nat) {m : Mem} {Q : Unit → Mem → Prop},
    (∀ k, k < i + n → f k < cs.length) → CanWrite m q (i + n) →
    (wp (forFrom (fun i => do let y ← tread cs (f i); wrt q i y) i n) Q E m ↔
      Q () (m.write (q.add i) ((List.range' i n).map fun k => cs.getD (f k) 0)))
  | 0, i, m, Q, _, _ => by simp [forFrom]
  | n + 1, i, m, Q, hf, hw => by
    unfold CanWrite at hw
    have h1 := hf i (by omega)
    have ih := fun m' (hm : m'.size = m.size) => write_loop_wp cs f (q := q) (E := E) n (i + 1) (m := m') (Q := Q) (fun k hk => hf k (by omega)) (by unfold CanWrite; rw [hm]; omega)
    simp only [forFrom, wp_bind, wp_tread, wp_wrt, List.range'_succ, List.map_cons]
    have e : (m.write (q.add i) [cs[f i]]).write (q.add (i + 1)) ((List.range' (i + 1) n).map fun k => cs.getD (f k) 0) =
        m.write (q.add i) (cs.getD (f i) 0 :: (List.range' (i + 1) n).map fun k => cs.getD (f k) 0) := by
      rw [← List.getElem_eq_getD (h := h1), show q.add (i + 1) = (q.add i).add 1 by simp, Mem.write_append' m (q.add i) [_] _ (n := 1) rfl]; rfl
    constructor
    · rintro ⟨_, _, h⟩
      rw [ih _ (by simp), e] at h; exact h
    · intro h
      refine ⟨h1, by omega, ?_⟩
      rw [ih _ (by simp), e]; exact h

theorem wp_tread_of {t : List Byte} {i j : Nat} {Q : Byte → Mem → Prop} {E m} (e : i = j) (h : j < t.length) :
    wp (tread t i) Q E m ↔ Q (t.getD j 0) m := by
  subst e
  rw [wp_tread, ← List.getElem_eq_getD (h := h)]
  exact ⟨fun ⟨_, h⟩ => h, fun h' => ⟨h, h'⟩⟩

theorem shr_and {w} (x m : BitVec w) (s k : Nat) (hm : m.toNat = 2 ^ k - 1) : ((x >>> s) &&& m).toNat = x.toNat / 2 ^ s % 2 ^ k := by
  rw [BitVec.toNat_and, hm, Nat.and_two_pow_sub_one_eq_mod, BitVec.toNat_ushiftRight, Nat.shiftRight_eq_div_pow]

theorem toBE_getElem? {w} (n : Nat) (x : BitVec w) (i : Nat) : (toBE n x)[i]? = if i < n then some (x.extractLsb' (8 * (n - 1 - i)) 8) else none := by
  unfold toBE
  rw [List.getElem?_map]
  by_cases h : i < n
  · rw [List.getElem?_eq_getElem (by simpa using h)]; simp [h]
  · rw [List.getElem?_eq_none (by simpa using h)]; simp [h]

@[simp] theorem toBE_length {w} (n : Nat) (x : BitVec w) : (toBE n x).length = n := by simp [toBE]

/-- Accumulating a value of `b` bits below the value so far. -/
theorem acc_step {w} (y : BitVec w) (v : Byte) {Y s b : Nat} (hy : y.toNat = Y * 2 ^ (s + b)) (hv : v.toNat < 2 ^ b)
    (hw : v.toNat * 2 ^ s < 2 ^ w) : (y ||| (v.zeroExtend w <<< s)).toNat = (Y * 2 ^ b + v.toNat) * 2 ^ s := by
  have hv' : v.toNat < 2 ^ w := Nat.lt_of_le_of_lt (Nat.le_mul_of_pos_right _ (Nat.two_pow_pos s)) hw
  rw [BitVec.toNat_or, BitVec.toNat_shiftLeft, zext_toNat, Nat.mod_eq_of_lt hv', Nat.shiftLeft_eq,
    Nat.mod_eq_of_lt hw, hy]
  have : v.toNat * 2 ^ s < 2 ^ (s + b) := by
    rw [Nat.add_comm, Nat.pow_add]; exact (Nat.mul_lt_mul_right (Nat.two_pow_pos s)).2 hv
  rw [← Nat.shiftLeft_eq Y, ← Nat.shiftLeft_add_eq_or_of_lt this, Nat.shiftLeft_eq, Nat.add_mul, Nat.mul_assoc, ← Nat.pow_add, Nat.add_comm b s]

/-- OR of table values, each `255` or below `2 ^ b`. -/
theorem or_eq_ff (x y : Byte) {b : Nat} (hb : b < 8) (hx : x = 255#8 ∨ x.toNat < 2 ^ b) (hy : y = 255#8 ∨ y.toNat < 2 ^ b) :
    (x ||| y = 255#8 ∨ (x ||| y).toNat < 2 ^ b) ∧ (x ||| y = 255#8 ↔ x = 255#8 ∨ y = 255#8) := by
  have h2 : 2 ^ b ≤ 128 := Nat.pow_le_pow_right (n := 2) (by omega) (show b ≤ 7 by omega)
  have o1 : ∀ z : Byte, 255#8 ||| z = 255#8 := by decide +kernel
  have o2 : ∀ z : Byte, z ||| 255#8 = 255#8 := by decide +kernel
  rcases hx with rfl | hx
  · simp [o1]
  · rcases hy with rfl | hy
    · simp [o2]
    · have : (x ||| y).toNat < 2 ^ b := by rw [BitVec.toNat_or]; exact Nat.or_lt_two_pow hx hy
      refine ⟨.inr this, ?_⟩
      constructor
      · intro e; rw [e] at this; simp at this; omega
      · rintro (rfl | rfl)
        · simp at hx; omega
        · simp at hy; omega

end Simd
