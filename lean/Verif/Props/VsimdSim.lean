import Verif.Model.Unified
import Verif.Model.HexKernel
import Verif.Lemmas.Scalable
import Verif.Lemmas.UnifiedOps
import Verif.Spec.Hex
import Verif.Props.VsimdMask
/-
C55: ASCII case conversion of vectors. C56: the scalar stand-ins of simulation.rs compute what the intrinsics they replace compute.
-/
namespace Simd
namespace Vsimd
open Vs Intrin IsaId

/-! ### ASCII case conversion -/

/-- ASCII upper case. -/
def toUpper (c : Byte) : Byte := if 0x61 ≤ c.toNat ∧ c.toNat ≤ 0x7a then c - 0x20#8 else c

theorem convert_byte (C : Byte) (f : Byte → Byte)
    (h : ∀ x : Fin 256, BitVec.ofFin x ^^^ (maskOf 8 ((BitVec.ofFin x - (C + 0x80#8)).slt (BitVec.ofInt 8 (-0x80 + 26))) &&& 0x20#8) = f (BitVec.ofFin x))
    (x : Byte) : x ^^^ (maskOf 8 ((x - (C + 0x80#8)).slt (BitVec.ofInt 8 (-0x80 + 26))) &&& 0x20#8) = f x := h x.toFin

theorem convert_eq {n : Nat} [Scalable n] [LawfulScalable n] (C : Byte) (hC : (C == 0x41 || C == 0x61) = true) (f : Byte → Byte)
    (h : ∀ x : Fin 256, BitVec.ofFin x ^^^ (maskOf 8 ((BitVec.ofFin x - (C + 0x80#8)).slt (BitVec.ofInt 8 (-0x80 + 26))) &&& 0x20#8) = f (BitVec.ofFin x))
    (s : Isa) (x : Vec n) : ∃ r, convert_ascii_case C s x = some r ∧ r.toList = x.toList.map f := by
  refine ⟨_, by simp only [convert_ascii_case, hC, if_true, LawfulScalable.splat8_eq, LawfulScalable.sub_eq, LawfulScalable.lt_eq, LawfulScalable.and_eq,
    LawfulScalable.xor_eq, Option.bind_eq_bind, Option.bind_some]; rfl, ?_⟩
  simp only [Vec.toList, List.map_map]
  apply List.map_congr_left
  intro i _
  simp only [Function.comp, Intrin.xor, Intrin.and, sub8, lt_i8, map8_lane, set1_8_lane]
  exact convert_byte C f h (x.lane i)

/-- C55: `to_ascii_lowercase` never panics and lowers exactly the letters `A`-`Z`, on every instruction set and at both widths. -/
theorem C55_lower (s : Isa) (x : V128) (y : V256) :
    (∃ r, to_ascii_lowercase s x = some r ∧ r.toList = x.toList.map Spec.toLower) ∧
    (∃ r, to_ascii_lowercase s y = some r ∧ r.toList = y.toList.map Spec.toLower) := by
  have h : ∀ x : Fin 256, BitVec.ofFin x ^^^ (maskOf 8 ((BitVec.ofFin x - (0x41#8 + 0x80#8)).slt (BitVec.ofInt 8 (-0x80 + 26))) &&& 0x20#8) = Spec.toLower (BitVec.ofFin x) := by
    decide +kernel
  exact ⟨convert_eq 0x41 rfl _ h s x, convert_eq 0x41 rfl _ h s y⟩

/-- C55: `to_ascii_uppercase`. -/
theorem C55_upper (s : Isa) (x : V128) (y : V256) :
    (∃ r, to_ascii_uppercase s x = some r ∧ r.toList = x.toList.map toUpper) ∧
    (∃ r, to_ascii_uppercase s y = some r ∧ r.toList = y.toList.map toUpper) := by
  have h : ∀ x : Fin 256, BitVec.ofFin x ^^^ (maskOf 8 ((BitVec.ofFin x - (0x61#8 + 0x80#8)).slt (BitVec.ofInt 8 (-0x80 + 26))) &&& 0x20#8) = toUpper (BitVec.ofFin x) := by
    decide +kernel
  exact ⟨convert_eq 0x61 rfl _ h s x, convert_eq 0x61 rfl _ h s y⟩

example : [0x40, 0x41, 0x5a, 0x5b, 0x61, 0xc1].map Spec.toLower = [0x40, 0x61, 0x7a, 0x5b, 0x61, 0xc1#8] ∧
    [0x60, 0x61, 0x7a, 0x7b, 0x41, 0xe1].map toUpper = [0x60, 0x41, 0x5a, 0x7b, 0x41, 0xe1#8] := by decide

/-! ### simulation.rs -/

theorem byte_ult_toNat (x y : Byte) : x.ult y = true ↔ x.toNat < y.toNat := by simp [BitVec.ult]

/-- C56: the Miri stand-ins of `u8x16_max`, `u8x16_min` give the bytes of the real result, on every instruction set. -/
theorem C56_max_min (s : Isa) (a b : V128) :
    (∃ r, Vs.u8x16_max s a b = some r ∧ Sim.u8x16_max a.toList b.toList = r.toList) ∧
    (∃ r, Vs.u8x16_min s a b = some r ∧ Sim.u8x16_min a.toList b.toList = r.toList) := by
  refine ⟨⟨max_u8 a b, by cases s <;> rfl, ?_⟩, ⟨min_u8 a b, by cases s <;> rfl, ?_⟩⟩
  · refine List.map_congr_left fun i hi => ?_
    have hi : i < 16 := List.mem_range.1 hi
    rw [toList_getD a hi, toList_getD b hi]; rfl
  · refine List.map_congr_left fun i hi => ?_
    have hi : i < 16 := List.mem_range.1 hi
    rw [toList_getD a hi, toList_getD b hi]
    show _ = (if (a.lane i).ult (b.lane i) then a.lane i else b.lane i)
    simp only [byte_ult_toNat]
    split <;> split
    · omega
    · rfl
    · rfl
    · exact BitVec.eq_of_toNat_eq (by omega)

theorem bitmaskLoop_bit (a : List Byte) : ∀ n, n ≤ 16 → ∀ i, (Sim.bitmaskLoop a n).getLsbD i = (decide (i < n) && (a.getD i 0).msb)
  | 0, _, i => by simp [Sim.bitmaskLoop]
  | n + 1, hn, i => by
    rw [Sim.bitmaskLoop, BitVec.getLsbD_or, bitmaskLoop_bit a n (by omega) i, BitVec.getLsbD_shiftLeft, BitVec.getLsbD_setWidth, BitVec.getLsbD_ushiftRight]
    rcases Nat.lt_trichotomy i n with h | h | h
    · simp [h, show i < n + 1 by omega]
    · subst h
      simp [show i < 16 by omega, BitVec.msb, BitVec.getMsbD]
    · rw [BitVec.getLsbD_of_ge (a.getD n 0) (7 + (i - n)) (by omega)]
      simp [show ¬ i < n by omega, show ¬ i < n + 1 by omega]

/-- C56: the Miri stand-in of `u8x16_bitmask` gives the number the real operation gives. -/
theorem C56_bitmask (s : Isa) (a : V128) (m : Nat) (h : Vs.u8x16_bitmask s a = some m) : (Sim.u8x16_bitmask a.toList).toNat = m := by
  obtain ⟨hb, hm⟩ := C53_bitmask128 s a m h
  apply Nat.eq_of_testBit_eq
  intro i
  rw [hb i, BitVec.testBit_toNat, Sim.u8x16_bitmask, bitmaskLoop_bit _ _ (Nat.le_refl _), Vec.toList_length]
  congr 1
  rw [Bool.eq_iff_iff, decide_eq_true_eq, msb_iff]

/-- C56: the Miri stand-ins of the 16-bit shifts agree with the real operation, for every immediate the real operation accepts. -/
theorem C56_shift (s : Isa) (k : Nat) (hk : k < 16) (a : V128) :
    (∃ r, Vs.u16x8_shl s k a = some r ∧ Sim.u16x8_shl a.toList k = some r.toList) ∧
    (∃ r, Vs.u16x8_shr s k a = some r ∧ Sim.u16x8_shr a.toList k = some r.toList) := by
  refine ⟨⟨_, u16x8_shl_eq s k a, ?_⟩, ⟨_, u16x8_shr_eq s k a, ?_⟩⟩
  · rw [Sim.u16x8_shl, if_pos hk]; rfl
  · rw [Sim.u16x8_shr, if_pos hk]; rfl

theorem sat_u8_eq (x : BitVec 16) : Sim.sat_u8 x = packus1 x := by
  unfold Sim.sat_u8 packus1
  simp only [BitVec.slt, decide_eq_true_eq]
  have h255 : (255#16).toInt = 255 := by decide
  have h0 : (0 : BitVec 16).toInt = 0 := by decide
  rw [h255, h0]
  have hx := x.isLt
  rw [BitVec.toInt_eq_toNat_cond]
  apply BitVec.eq_of_toNat_eq
  split <;> split <;> (try split) <;> simp only [BitVec.toNat_ofNat, BitVec.toNat_setWidth, BitVec.ofNat_eq_ofNat] <;> omega

/-- C56: the Miri stand-in of `i16x8_packus`. -/
theorem C56_packus (s : Isa) (a b r : V128) (h : Vs.i16x8_packus s a b = some r) : Sim.i16x8_packus a.toList b.toList = r.toList := by
  have hr : r = packus a b := by cases s <;> simp [Vs.i16x8_packus, Isa.is] at h <;> exact h.symm
  subst hr
  rw [Sim.i16x8_packus, show Sim.sat_u8 = packus1 from funext sat_u8_eq]; rfl

example : Sim.i16x8_packus [0xff, 0xff, 0, 1] [7, 0] = [0, 255, 0, 0, 0, 0, 0, 0, 7, 0, 0, 0, 0, 0, 0, 0] ∧
    Sim.u8x16_bitmask [0x80, 0x7f, 0xff] = 5 ∧ Sim.u16x8_shl [0x80, 1] 1 = some [0, 3, 0, 0, 0, 0, 0, 0, 0, 0, 0, 0, 0, 0, 0, 0] := by decide +kernel

end Vsimd
end Simd
