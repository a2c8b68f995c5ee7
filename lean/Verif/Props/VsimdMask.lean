import Verif.Model.Unified
import Verif.Lemmas.Mask
import Verif.Lemmas.UnifiedMethods
/-
C53: bit masks, reductions and mask tests of vsimd. The statements speak of the bytes `a.toList` of a vector only.
-/
namespace Simd
namespace Vsimd
open Intrin Vs

theorem mem_toList {n} {a : Vec n} {x : Byte} : x ∈ a.toList ↔ ∃ i, i < n ∧ a.lane i = x := by
  simp [Vec.toList]

theorem allLane_mem {n} {a : Vec n} {p : Byte → Bool} {P : Byte → Prop} (hp : ∀ x, p x = true ↔ P x) :
    (allLane n fun i => p (a.lane i)) = true ↔ ∀ x ∈ a.toList, P x := by
  rw [allLane_iff]
  constructor
  · intro h x hx
    obtain ⟨i, hi, rfl⟩ := mem_toList.1 hx
    exact (hp _).1 (h i hi)
  · intro h i hi
    exact (hp _).2 (h _ (mem_toList.2 ⟨i, hi, rfl⟩))
theorem anyLane_mem {n} {a : Vec n} {p : Byte → Bool} {P : Byte → Prop} (hp : ∀ x, p x = true ↔ P x) :
    (anyLane n fun i => p (a.lane i)) = true ↔ ∃ x ∈ a.toList, P x := by
  rw [anyLane_iff]
  constructor
  · rintro ⟨i, hi, h⟩
    exact ⟨_, mem_toList.2 ⟨i, hi, rfl⟩, (hp _).1 h⟩
  · rintro ⟨x, hx, h⟩
    obtain ⟨i, hi, rfl⟩ := mem_toList.1 hx
    exact ⟨i, hi, (hp _).2 h⟩

/-! ### Bit masks -/

theorem bitsNat_testBit (f : Nat → Bool) : ∀ n i, (bitsNat f n).testBit i = (decide (i < n) && f i)
  | 0, i => by simp [bitsNat]
  | n + 1, i => by
    have ih := bitsNat_testBit f n i
    have hlt := bitsNat_lt f n
    rw [bitsNat]
    cases hf : f n with
    | false =>
      simp only [Bool.false_eq_true, if_false, Nat.add_zero, ih]
      by_cases h : i = n
      · subst h; simp [hf]
      · have : (i < n + 1) = (i < n) := by apply propext; omega
        simp only [this]
    | true =>
      rw [if_pos rfl, Nat.add_comm, ← Nat.mul_one (2 ^ n), Nat.testBit_two_pow_mul_add _ hlt]
      by_cases h : i < n
      · rw [if_pos h, ih]; simp [h, Nat.lt_succ_of_lt h]
      · rw [if_neg h]
        by_cases h' : i = n
        · subst h'; simp [hf]
        · have h1 : 1 ≤ i - n := by omega
          rw [Nat.testBit_lt_two_pow (show 1 < 2 ^ (i - n) from Nat.lt_of_lt_of_le (by decide) (Nat.pow_le_pow_right (by decide) h1))]
          simp; omega

/-- `m` is the mask of the high bits of the bytes `xs`: bit `i` of `m` is the high bit of byte `i`, and there are no other bits. -/
def IsBitmask (xs : List Byte) (m : Nat) : Prop := ∀ i, m.testBit i = (decide (i < xs.length) && decide (128 ≤ (xs.getD i 0).toNat))

theorem movemask_isBitmask {n} (a : Vec n) : IsBitmask a.toList (movemask a) := by
  intro i
  rw [movemask, bitsNat_testBit, Vec.toList_length]
  by_cases h : i < n
  · rw [toList_getD _ h]
    simp only [h, decide_true, Bool.true_and]
    rw [Bool.eq_iff_iff, msb_iff]; simp
  · simp [h]

theorem getD_app_left (l k : List Byte) {i} (h : i < l.length) : (l ++ k).getD i 0 = l.getD i 0 := by
  rw [List.getD_eq_getElem?_getD, List.getElem?_append_left h, List.getD_eq_getElem?_getD]
theorem getD_app_right (l k : List Byte) {i} (h : l.length ≤ i) : (l ++ k).getD i 0 = k.getD (i - l.length) 0 := by
  rw [List.getD_eq_getElem?_getD, List.getElem?_append_right h, List.getD_eq_getElem?_getD]

/-- C53: `u8x16_bitmask` gives the high bits of the sixteen bytes. -/
theorem C53_bitmask128 (s : Isa) (a : V128) (m : Nat) (h : u8x16_bitmask s a = some m) : IsBitmask a.toList m ∧ m < 2 ^ 16 := by
  have hr : m = movemask a := by cases s <;> simp [u8x16_bitmask, Isa.is] at h <;> exact h.symm
  subst hr
  exact ⟨movemask_isBitmask a, bitsNat_lt _ _⟩
/-- C53: `u8x32_bitmask` gives the high bits of the 32 bytes. -/
theorem C53_bitmask256 (s : Isa) (a : V256) (m : Nat) (h : u8x32_bitmask s a = some m) : IsBitmask a.toList m ∧ m < 2 ^ 32 := by
  have key : ∀ m0 m1, IsBitmask a.lo.toList m0 → IsBitmask a.hi.toList m1 → m1 < 2 ^ 16 → m0 < 2 ^ 16 →
      IsBitmask a.toList (m1 <<< 16 ||| m0) ∧ m1 <<< 16 ||| m0 < 2 ^ 32 := by
    intro m0 m1 h0 h1 hm hm0
    refine ⟨fun i => ?_, Nat.or_lt_two_pow ?_ (by omega)⟩
    · rw [Nat.testBit_or, Nat.testBit_shiftLeft, h0 i, h1 (i - 16)]
      simp only [Vec.toList_length, toList_split a, List.length_append]
      by_cases hi : i < 16
      · rw [getD_app_left _ _ (by simpa using hi)]
        simp [hi, show ¬ 16 ≤ i by omega, show i < 32 by omega]
      · rw [getD_app_right _ _ (by simpa using hi)]
        by_cases h32 : i < 32
        · simp [hi, show 16 ≤ i by omega, h32, show i - 16 < 16 by omega]
        · simp [hi, h32, show ¬ i - 16 < 16 by omega]
    · rw [Nat.shiftLeft_eq]; omega
  unfold u8x32_bitmask at h
  split at h
  · obtain rfl := Option.some.inj h
    exact ⟨movemask_isBitmask a, bitsNat_lt _ _⟩
  · cases h0 : u8x16_bitmask s a.lo with
    | none => simp [h0] at h
    | some m0 =>
      cases h1 : u8x16_bitmask s a.hi with
      | none => simp [h0, h1] at h
      | some m1 =>
        have hr : m = m1 <<< 16 ||| m0 := by simpa [h0, h1] using h.symm
        subst hr
        obtain ⟨g0, l0⟩ := C53_bitmask128 s _ _ h0
        obtain ⟨g1, l1⟩ := C53_bitmask128 s _ _ h1
        exact key m0 m1 g0 g1 l1 l0

example : u8x32_bitmask .sse2 (.ofList (List.replicate 16 0 ++ [0x80, 0x7f, 0xff])) = some 0x50000 := by decide +kernel

/-! ### Zero tests -/

/-- C53: `u8x16_any_zero` never panics and says whether some byte is zero. -/
theorem C53_any_zero128 (s : Isa) (a : V128) : ∃ b, u8x16_any_zero s a = some b ∧ (b = true ↔ 0#8 ∈ a.toList) := by
  have hn : (!allLane 16 fun i => a.lane i != 0#8) = true ↔ 0#8 ∈ a.toList := by
    rw [Bool.not_eq_true', ← Bool.not_eq_true, allLane_mem (p := fun x => x != 0#8) (P := fun x => x ≠ 0#8) (fun x => by simp)]
    constructor
    · intro h; by_contra hc; exact h fun x hx h0 => hc (h0 ▸ hx)
    · intro h hc; exact hc _ h rfl
  refine ⟨_, ?_, hn⟩
  have h1 : (movemask (eq8 a (set1_8 0#8)) != 0) = !allLane 16 fun i => a.lane i != 0#8 := by
    rw [movemask_ne_zero, any_not_all]
    congr 1; apply allLane_congr; intro i _
    simp only [eq8, map8_lane, set1_8_lane, maskOf]
    by_cases h : a.lane i = 0#8 <;> simp [h] <;> rfl
  have h2 : (minv a == 0#8) = !allLane 16 fun i => a.lane i != 0#8 := by rw [← minv_ne]; simp [bne]
  have h3 : all_true a = allLane 16 fun i => a.lane i != 0#8 := by
    rw [Bool.eq_iff_iff, allLane_iff, all_true, List.all_eq_true]; simp
  have h4 := vpmin_all a
  unfold u8x16_any_zero
  rw [h3]
  simp only [BitVec.ofNat_eq_ofNat, h2, h4]
  cases s <;> simp only [Isa.is, Isa.arm, Isa.aarch64, v128_create_zero_eq, u8x16_eq_eq, u8x16_bitmask, Option.bind_eq_bind, Option.bind_some,  
    Bool.and_false, Bool.and_true, if_true, if_false, Bool.false_eq_true, h1, BitVec.ofNat_eq_ofNat] <;> rfl

/-- C53: `u8x32_any_zero` never panics and says whether some byte is zero. -/
theorem C53_any_zero256 (s : Isa) (a : V256) : ∃ b, u8x32_any_zero s a = some b ∧ (b = true ↔ 0#8 ∈ a.toList) := by
  by_cases hs : s = .avx2
  · subst hs
    refine ⟨anyLane 32 fun i => a.lane i == 0#8, ?_, ?_⟩
    · have h1 : (movemask (eq8 a (set1_8 0#8)) != 0) = anyLane 32 fun i => a.lane i == 0#8 := by
        rw [movemask_ne_zero]
        apply anyLane_congr; intro i _
        simp only [eq8, map8_lane, set1_8_lane, maskOf]
        by_cases h : a.lane i = 0#8
        · simp [h]; rfl
        · simp [h]
      simp only [u8x32_any_zero, u8x32_bitmask, Isa.is, v256_create_zero_eq, u8x32_eq_eq, Option.bind_eq_bind, Option.bind_some, if_true, h1, BitVec.ofNat_eq_ofNat]; rfl
    · rw [anyLane_mem (p := fun x => x == 0#8) (P := fun x => x = 0#8) (fun x => by simp)]
      exact ⟨fun ⟨x, hx, h⟩ => h ▸ hx, fun h => ⟨_, h, rfl⟩⟩
  · have hv : u8x32_any_zero s a = u8x16_any_zero s (min_u8 a.lo a.hi) := by
      have hA : s.is .AVX2 = false := by cases s <;> first | contradiction | rfl
      have hm : u8x16_min s a.lo a.hi = some (min_u8 a.lo a.hi) := by cases s <;> rfl
      rw [u8x32_any_zero, hA, if_neg (by decide), hm]; rfl
    obtain ⟨b, h, hb⟩ := C53_any_zero128 s (min_u8 a.lo a.hi)
    refine ⟨b, hv.trans h, hb.trans ?_⟩
    rw [toList_split a, List.mem_append, mem_toList, mem_toList, mem_toList]
    have hm : ∀ i, (min_u8 a.lo a.hi).lane i = 0#8 ↔ a.lo.lane i = 0#8 ∨ a.hi.lane i = 0#8 := by
      intro i
      simp only [min_u8, map8_lane, byte_eq_zero_iff]
      simp only [BitVec.ult, decide_eq_true_eq]
      split <;> omega
    constructor
    · rintro ⟨i, hi, h⟩
      rcases (hm i).1 h with h | h
      · exact .inl ⟨i, hi, h⟩
      · exact .inr ⟨i, hi, h⟩
    · rintro (⟨i, hi, h⟩ | ⟨i, hi, h⟩)
      · exact ⟨i, hi, (hm i).2 (.inl h)⟩
      · exact ⟨i, hi, (hm i).2 (.inr h)⟩

example : u8x32_any_zero .neon32 (.ofList (List.replicate 31 1 ++ [0])) = some true ∧ u8x32_any_zero .neon32 (.ofList (List.replicate 32 1)) = some false := by
  decide +kernel

/-- C53: `v128_all_zero`, `v256_all_zero` say whether every byte is zero, on every instruction set but SSE2 and SSSE3 (where they panic at 128 bits). -/
theorem C53_all_zero (s : Isa) (hs : s ≠ .sse2 ∧ s ≠ .ssse3) (a : V128) (c : V256) :
    (∃ b, v128_all_zero s a = some b ∧ (b = true ↔ ∀ x ∈ a.toList, x = 0#8)) ∧ (∃ b, v256_all_zero s c = some b ∧ (b = true ↔ ∀ x ∈ c.toList, x = 0#8)) :=
  ⟨⟨_, v128_all_zero_eq s hs a, allLane_mem (p := fun x => x == 0#8) (fun x => by simp)⟩,
   ⟨_, v256_all_zero_eq s hs c, allLane_mem (p := fun x => x == 0#8) (fun x => by simp)⟩⟩

/-! ### Reductions -/

theorem maxUpTo_mem (f : Nat → Nat) : ∀ n, 0 < n → ∃ i, i < n ∧ maxUpTo f n = f i
  | 1, _ => ⟨0, by decide, by simp [maxUpTo]⟩
  | n + 2, _ => by
    obtain ⟨i, hi, h⟩ := maxUpTo_mem f (n + 1) (by omega)
    rw [maxUpTo]
    rcases Nat.le_total (maxUpTo f (n + 1)) (f (n + 1)) with hl | hl
    · exact ⟨n + 1, by omega, Nat.max_eq_right hl⟩
    · exact ⟨i, by omega, by rw [Nat.max_eq_left hl, h]⟩
theorem minUpTo_mem (f : Nat → Nat) (hf : ∀ i, f i ≤ 255) : ∀ n, 0 < n → ∃ i, i < n ∧ minUpTo f n = f i
  | 1, _ => ⟨0, by decide, by have := hf 0; simp [minUpTo]; omega⟩
  | n + 2, _ => by
    obtain ⟨i, hi, h⟩ := minUpTo_mem f hf (n + 1) (by omega)
    rw [minUpTo]
    rcases Nat.le_total (minUpTo f (n + 1)) (f (n + 1)) with hl | hl
    · exact ⟨i, by omega, by rw [Nat.min_eq_left hl, h]⟩
    · exact ⟨n + 1, by omega, Nat.min_eq_right hl⟩
theorem minUpTo_le_at (f : Nat → Nat) : ∀ n i, i < n → minUpTo f n ≤ f i
  | n + 1, i, h => by
    rw [minUpTo]
    by_cases hi : i = n
    · subst hi; exact Nat.min_le_right _ _
    · exact Nat.le_trans (Nat.min_le_left _ _) (minUpTo_le_at f n i (by omega))
theorem le_maxUpTo_at (f : Nat → Nat) : ∀ n i, i < n → f i ≤ maxUpTo f n
  | n + 1, i, h => by
    rw [maxUpTo]
    by_cases hi : i = n
    · subst hi; exact Nat.le_max_right _ _
    · exact Nat.le_trans (le_maxUpTo_at f n i (by omega)) (Nat.le_max_left _ _)

/-- `m` is the largest (smallest) of the bytes `xs`. -/
def IsMax (xs : List Byte) (m : Byte) : Prop := m ∈ xs ∧ ∀ x ∈ xs, x.toNat ≤ m.toNat
def IsMin (xs : List Byte) (m : Byte) : Prop := m ∈ xs ∧ ∀ x ∈ xs, m.toNat ≤ x.toNat

theorem maxv_isMax (a : V128) : IsMax a.toList (maxv a) := by
  obtain ⟨i, hi, h⟩ := maxUpTo_mem (fun i => (a.lane i).toNat) 16 (by decide)
  have hv : maxv a = a.lane i := by rw [maxv, h, BitVec.ofNat_toNat, BitVec.setWidth_eq]
  refine ⟨mem_toList.2 ⟨i, hi, hv.symm⟩, fun x hx => ?_⟩
  obtain ⟨j, hj, rfl⟩ := mem_toList.1 hx
  rw [hv, ← h]; exact le_maxUpTo_at (fun i => (a.lane i).toNat) 16 j hj
theorem minv_isMin (a : V128) : IsMin a.toList (minv a) := by
  obtain ⟨i, hi, h⟩ := minUpTo_mem (fun i => (a.lane i).toNat) (fun i => by have := (a.lane i).isLt; omega) 16 (by decide)
  have hv : minv a = a.lane i := by rw [minv, h, BitVec.ofNat_toNat, BitVec.setWidth_eq]
  refine ⟨mem_toList.2 ⟨i, hi, hv.symm⟩, fun x hx => ?_⟩
  obtain ⟨j, hj, rfl⟩ := mem_toList.1 hx
  rw [hv, ← h]; exact minUpTo_le_at (fun i => (a.lane i).toNat) 16 j hj

/-- C53: `u8x16_reduce_max`, `u8x16_reduce_min`. -/
theorem C53_reduce128 (s : Isa) (a : V128) (m : Byte) :
    (u8x16_reduce_max s a = some m → IsMax a.toList m) ∧ (u8x16_reduce_min s a = some m → IsMin a.toList m) := by
  constructor
  · intro h
    have hr : m = maxv a := by cases s <;> simp [u8x16_reduce_max, Isa.is, Isa.arm, Isa.aarch64] at h; exact h.symm
    exact hr ▸ maxv_isMax a
  · intro h
    have hr : m = minv a := by cases s <;> simp [u8x16_reduce_min, Isa.is, Isa.arm, Isa.aarch64] at h; exact h.symm
    exact hr ▸ minv_isMin a

/-- C53: `u8x32_reduce_max`, `u8x32_reduce_min`. -/
theorem C53_reduce256 (s : Isa) (a : V256) (m : Byte) :
    (u8x32_reduce_max s a = some m → IsMax a.toList m) ∧ (u8x32_reduce_min s a = some m → IsMin a.toList m) := by
  constructor
  · intro h
    have h' : u8x16_reduce_max s (max_u8 a.lo a.hi) = some m := by cases s <;> exact h
    obtain ⟨h1, h2⟩ := (C53_reduce128 s _ m).1 h'
    have hl : ∀ i, ((max_u8 a.lo a.hi).lane i = a.lo.lane i ∨ (max_u8 a.lo a.hi).lane i = a.hi.lane i) ∧
        (a.lo.lane i).toNat ≤ ((max_u8 a.lo a.hi).lane i).toNat ∧ (a.hi.lane i).toNat ≤ ((max_u8 a.lo a.hi).lane i).toNat := by
      intro i
      simp only [max_u8, map8_lane, BitVec.ult, decide_eq_true_eq]
      split <;> refine ⟨by simp, ?_, ?_⟩ <;> omega
    rw [toList_split a]
    refine ⟨?_, fun x hx => ?_⟩
    · obtain ⟨i, hi, rfl⟩ := mem_toList.1 h1
      rw [List.mem_append, mem_toList, mem_toList]
      rcases (hl i).1 with e | e
      · exact .inl ⟨i, hi, e.symm⟩
      · exact .inr ⟨i, hi, e.symm⟩
    · rcases List.mem_append.1 hx with hx | hx <;> obtain ⟨i, hi, rfl⟩ := mem_toList.1 hx
      · exact Nat.le_trans (hl i).2.1 (h2 _ (mem_toList.2 ⟨i, hi, rfl⟩))
      · exact Nat.le_trans (hl i).2.2 (h2 _ (mem_toList.2 ⟨i, hi, rfl⟩))
  · intro h
    have h' : u8x16_reduce_min s (min_u8 a.lo a.hi) = some m := by cases s <;> exact h
    obtain ⟨h1, h2⟩ := (C53_reduce128 s _ m).2 h'
    have hl : ∀ i, ((min_u8 a.lo a.hi).lane i = a.lo.lane i ∨ (min_u8 a.lo a.hi).lane i = a.hi.lane i) ∧
        ((min_u8 a.lo a.hi).lane i).toNat ≤ (a.lo.lane i).toNat ∧ ((min_u8 a.lo a.hi).lane i).toNat ≤ (a.hi.lane i).toNat := by
      intro i
      simp only [min_u8, map8_lane, BitVec.ult, decide_eq_true_eq]
      split <;> refine ⟨by simp, ?_, ?_⟩ <;> omega
    rw [toList_split a]
    refine ⟨?_, fun x hx => ?_⟩
    · obtain ⟨i, hi, rfl⟩ := mem_toList.1 h1
      rw [List.mem_append, mem_toList, mem_toList]
      rcases (hl i).1 with e | e
      · exact .inl ⟨i, hi, e.symm⟩
      · exact .inr ⟨i, hi, e.symm⟩
    · rcases List.mem_append.1 hx with hx | hx <;> obtain ⟨i, hi, rfl⟩ := mem_toList.1 hx
      · exact Nat.le_trans (h2 _ (mem_toList.2 ⟨i, hi, rfl⟩)) (hl i).2.1
      · exact Nat.le_trans (h2 _ (mem_toList.2 ⟨i, hi, rfl⟩)) (hl i).2.2

example : u8x32_reduce_max .neon64 (.ofList (List.replicate 20 3 ++ [9])) = some 9 ∧ u8x32_reduce_min .neon64 (.ofList (List.replicate 32 3)) = some 3 := by
  decide +kernel

/-! ### Mask tests (mask.rs) -/

/-- The bytes of a comparison result: all ones or all zeroes. -/
def MaskBytes (xs : List Byte) : Prop := ∀ x ∈ xs, x = 0#8 ∨ x = 0xff#8

theorem MaskBytes.isMask {n} {a : Vec n} (h : MaskBytes a.toList) : IsMask a := fun i hi => h _ (mem_toList.2 ⟨i, hi, rfl⟩)

theorem all_ff {n} {a : Vec n} (h : MaskBytes a.toList) : (allLane n fun i => a.lane i != 0#8) = true ↔ ∀ x ∈ a.toList, x = 0xff#8 := by
  rw [allLane_mem (p := fun x => x != 0#8) (P := fun x => x ≠ 0#8) (fun x => by simp)]
  constructor
  · intro H x hx
    rcases h x hx with h0 | h0
    · exact absurd h0 (H x hx)
    · exact h0
  · intro H x hx; rw [H x hx]; decide
theorem any_ff {n} {a : Vec n} (h : MaskBytes a.toList) : (anyLane n fun i => a.lane i != 0#8) = true ↔ ∃ x ∈ a.toList, x = 0xff#8 := by
  rw [anyLane_mem (p := fun x => x != 0#8) (P := fun x => x ≠ 0#8) (fun x => by simp)]
  constructor
  · rintro ⟨x, hx, h0⟩
    exact ⟨x, hx, (h x hx).resolve_left h0⟩
  · rintro ⟨x, hx, rfl⟩; exact ⟨_, hx, by decide⟩

/-- C53: on a comparison result, `mask8x16_all` and `mask8x16_any` never panic, and say whether all, or some, lanes are set. -/
theorem C53_mask128 (s : Isa) (a : V128) (h : MaskBytes a.toList) :
    (∃ b, mask8x16_all s a = some b ∧ (b = true ↔ ∀ x ∈ a.toList, x = 0xff#8)) ∧ (∃ b, mask8x16_any s a = some b ∧ (b = true ↔ ∃ x ∈ a.toList, x = 0xff#8)) :=
  ⟨⟨_, mask8x16_all_eq s a h.isMask, all_ff h⟩, ⟨_, mask8x16_any_eq s a h.isMask, any_ff h⟩⟩
/-- C53: `mask8x32_all`, `mask8x32_any`. -/
theorem C53_mask256 (s : Isa) (a : V256) (h : MaskBytes a.toList) :
    (∃ b, mask8x32_all s a = some b ∧ (b = true ↔ ∀ x ∈ a.toList, x = 0xff#8)) ∧ (∃ b, mask8x32_any s a = some b ∧ (b = true ↔ ∃ x ∈ a.toList, x = 0xff#8)) :=
  ⟨⟨_, mask8x32_all_eq s a h.isMask, all_ff h⟩, ⟨_, mask8x32_any_eq s a h.isMask, any_ff h⟩⟩

/-- The comparison results of C51 are such masks. -/
theorem C53_cmp_mask (s : Isa) (a b r : V256) (h : u8x32_eq s a b = some r) : MaskBytes r.toList := by
  rw [u8x32_eq_eq] at h
  obtain rfl := Option.some.inj h
  intro x hx
  obtain ⟨i, hi, rfl⟩ := mem_toList.1 hx
  exact isMask_eq8 a b i hi

example : MaskBytes (Vec.toList (.ofList [0xff, 0, 0xff] : V128)) := by unfold MaskBytes; decide +kernel

/-- C53: `u8x16_highbit_all`, `u8x16_highbit_any` never panic, and say whether all, or some, bytes have the high bit. -/
theorem C53_highbit128 (s : Isa) (a : V128) :
    (∃ b, u8x16_highbit_all s a = some b ∧ (b = true ↔ ∀ x ∈ a.toList, 128 ≤ x.toNat)) ∧
    (∃ b, u8x16_highbit_any s a = some b ∧ (b = true ↔ ∃ x ∈ a.toList, 128 ≤ x.toNat)) := by
  refine ⟨⟨allLane 16 fun i => (a.lane i).msb, ?_, allLane_mem msb_iff⟩, ⟨_, u8x16_highbit_any_eq s a, anyLane_mem msb_iff⟩⟩
  have h1 : (movemask a == 65535) = allLane 16 fun i => (a.lane i).msb := movemask_ones a (by norm_num)
  have h2 : (0x80#8).ule (minv a) = allLane 16 fun i => (a.lane i).msb := by
    have h255 := minUpTo_le (fun i => (a.lane i).toNat) 16
    rw [Bool.eq_iff_iff, allLane_iff, BitVec.ule, minv, BitVec.toNat_ofNat, BitVec.toNat_ofNat, Nat.mod_eq_of_lt (a := minUpTo _ _) (by omega)]
    simp only [decide_eq_true_eq, msb_iff]
    exact le_minUpTo _ 16 128 (by omega)
  have h3 : (allLane 16 fun i => (lt_i8 a (set1_8 0#8)).lane i != 0#8) = allLane 16 fun i => (a.lane i).msb := by
    apply allLane_congr; intro i _
    simp only [lt_i8, map8_lane, set1_8_lane, maskOf, msb_slt_zero]
    cases (a.lane i).msb <;> rfl
  have h4 : mask8x16_all .neon32 (lt_i8 a (set1_8 0#8)) = some (allLane 16 fun i => (a.lane i).msb) := by rw [mask8x16_all_eq _ _ (isMask_lt_i8 _ _), h3]
  cases s <;> simp [u8x16_highbit_all, u8x16_bitmask, Isa.is, Isa.arm, Isa.aarch64, h1, u8x16_reduce_min, h2]
  exact h4

/-- C53: `u8x32_highbit_all`, `u8x32_highbit_any`. -/
theorem C53_highbit256 (s : Isa) (a : V256) :
    (∃ b, u8x32_highbit_all s a = some b ∧ (b = true ↔ ∀ x ∈ a.toList, 128 ≤ x.toNat)) ∧
    (∃ b, u8x32_highbit_any s a = some b ∧ (b = true ↔ ∃ x ∈ a.toList, 128 ≤ x.toNat)) := by
  refine ⟨?_, ⟨_, u8x32_highbit_any_eq s a, anyLane_mem msb_iff⟩⟩
  by_cases hs : s = .avx2
  · subst hs
    have h1 : (movemask a == 4294967295) = allLane 32 fun i => (a.lane i).msb := movemask_ones a (by norm_num)
    exact ⟨_, by simp only [u8x32_highbit_all, u8x32_bitmask, Isa.is, if_true, Option.bind_eq_bind, Option.bind_some, h1]; rfl, allLane_mem msb_iff⟩
  · have hv : u8x32_highbit_all s a = u8x16_highbit_all s (Intrin.and a.lo a.hi) := by
      have hA : s.is .AVX2 = false := by cases s <;> first | contradiction | rfl
      rw [u8x32_highbit_all, hA, if_neg (by decide), if_pos (by cases s <;> rfl), v128_and_eq]; rfl
    obtain ⟨⟨b, h, hb⟩, _⟩ := C53_highbit128 s (Intrin.and a.lo a.hi)
    refine ⟨b, hv.trans h, hb.trans ?_⟩
    have hm : ∀ i, 128 ≤ ((Intrin.and a.lo a.hi).lane i).toNat ↔ 128 ≤ (a.lo.lane i).toNat ∧ 128 ≤ (a.hi.lane i).toNat := by
      intro i
      rw [← msb_iff, ← msb_iff, ← msb_iff]
      simp only [Intrin.and, map8_lane, msb_and, Bool.and_eq_true]
    rw [toList_split a]
    constructor
    · intro H x hx
      rcases List.mem_append.1 hx with hx | hx <;> obtain ⟨i, hi, rfl⟩ := mem_toList.1 hx
      · exact ((hm i).1 (H _ (mem_toList.2 ⟨i, hi, rfl⟩))).1
      · exact ((hm i).1 (H _ (mem_toList.2 ⟨i, hi, rfl⟩))).2
    · intro H x hx
      obtain ⟨i, hi, rfl⟩ := mem_toList.1 hx
      exact (hm i).2 ⟨H _ (List.mem_append_left _ (mem_toList.2 ⟨i, hi, rfl⟩)), H _ (List.mem_append_right _ (mem_toList.2 ⟨i, hi, rfl⟩))⟩

example : u8x32_highbit_all .neon32 (.ofList (List.replicate 32 0x80)) = some true ∧ u8x32_highbit_all .neon32 (.ofList (List.replicate 31 0x80)) = some false := by
  decide +kernel

end Vsimd
end Simd
