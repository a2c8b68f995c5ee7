import Verif.Props.Vsimd
import Verif.Lemmas.UnifiedMove
import Verif.Lemmas.Bswap
/-
C52: the data-movement operations of vsimd.
-/
namespace Simd
namespace Vsimd
open Intrin Vs

/-- The interleaving methods of `SIMD128`: width, whether the high half, and the method. -/
inductive ZipM where
  | lo8 | hi8 | lo16 | hi16 | lo32 | hi32 | lo64 | hi64
deriving DecidableEq, Repr

/-- Element width and first element. -/
def ZipM.par : ZipM → Nat × Nat
  | .lo8 => (1, 0) | .hi8 => (1, 8) | .lo16 => (2, 0) | .hi16 => (2, 4)
  | .lo32 => (4, 0) | .hi32 => (4, 2) | .lo64 => (8, 0) | .hi64 => (8, 1)
def ZipM.run128 : ZipM → Isa → V128 → V128 → Option V128
  | .lo8 => u8x16_zip_lo | .hi8 => u8x16_zip_hi | .lo16 => u16x8_zip_lo | .hi16 => u16x8_zip_hi
  | .lo32 => u32x4_zip_lo | .hi32 => u32x4_zip_hi | .lo64 => u64x2_zip_lo | .hi64 => u64x2_zip_hi
def ZipM.run256 : ZipM → Isa → V256 → V256 → Option V256
  | .lo8 => u8x16x2_zip_lo | .hi8 => u8x16x2_zip_hi | .lo16 => u16x8x2_zip_lo | .hi16 => u16x8x2_zip_hi
  | .lo32 => u32x4x2_zip_lo | .hi32 => u32x4x2_zip_hi | .lo64 => u64x2x2_zip_lo | .hi64 => u64x2x2_zip_hi

theorem ZipM.dims (z : ZipM) : z.par.1 * (16 / z.par.1) = 16 ∧ z.par.2 + 16 / z.par.1 / 2 ≤ 16 / z.par.1 := by cases z <;> decide

theorem zip128 (z : ZipM) (s : Isa) (a b : V128) : ∃ r, z.run128 s a b = some r ∧ VZip z.par.1 z.par.2 a b r := by
  have hlo := fun w hw => unpackloN_zip (w := w) hw a b
  have hhi := fun w hw => unpackhiN_zip (w := w) hw a b
  cases z
  case lo8 => exact ⟨_, u8x16_zip_lo_eq s a b, by rw [unpacklo8_eqN]; exact hlo 1 (by decide)⟩
  case hi8 => exact ⟨_, u8x16_zip_hi_eq s a b, by rw [unpackhi8_eqN]; exact hhi 1 (by decide)⟩
  case lo64 => exact ⟨_, u64x2_zip_lo_eq s a b, by rw [unpacklo64_eqN]; exact hlo 8 (by decide)⟩
  case lo16 => cases s <;> refine ⟨_, rfl, ?_⟩ <;> first | exact hlo 2 (by decide) | exact wasm_zip (m := 8) rfl (by decide) (by decide) a b
  case hi16 => cases s <;> refine ⟨_, rfl, ?_⟩ <;> first | exact hhi 2 (by decide) | exact wasm_zip (m := 8) rfl (by decide) (by decide) a b
  case lo32 => cases s <;> refine ⟨_, rfl, ?_⟩ <;> first | exact hlo 4 (by decide) | exact wasm_zip (m := 4) rfl (by decide) (by decide) a b
  case hi32 => cases s <;> refine ⟨_, rfl, ?_⟩ <;> first | exact hhi 4 (by decide) | exact wasm_zip (m := 4) rfl (by decide) (by decide) a b
  case hi64 =>
    cases s
    case neon32 => exact ⟨_, rfl, pair64_zip 1 a b⟩
    case neon64 => exact ⟨_, rfl, pair64_zip 1 a b⟩
    case wasm128 => exact ⟨_, rfl, wasm_zip (m := 2) rfl (by decide) (by decide) a b⟩
    all_goals exact ⟨_, rfl, hhi 8 (by decide)⟩

theorem vop2_total {f : V128 → V128 → Option V128} (h : ∀ a b, ∃ r, f a b = some r) (a b : V256) : ∃ r, vop2 f a b = some r := by
  obtain ⟨r0, h0⟩ := h a.lo b.lo
  obtain ⟨r1, h1⟩ := h a.hi b.hi
  exact ⟨join r0 r1, by simp [vop2, h0, h1]⟩

theorem zip256 (z : ZipM) (s : Isa) (a b : V256) : ∃ r, z.run256 s a b = some r ∧ VZip z.par.1 z.par.2 a b r := by
  by_cases hs : s = .avx2
  · subst hs
    cases z
    case lo8 => exact ⟨_, rfl, by rw [unpacklo8_eqN]; exact unpackloN_zip (w := 1) (by decide) a b⟩
    case hi8 => exact ⟨_, rfl, by rw [unpackhi8_eqN]; exact unpackhiN_zip (w := 1) (by decide) a b⟩
    case lo16 => exact ⟨_, rfl, unpackloN_zip (w := 2) (by decide) a b⟩
    case hi16 => exact ⟨_, rfl, unpackhiN_zip (w := 2) (by decide) a b⟩
    case lo32 => exact ⟨_, rfl, unpackloN_zip (w := 4) (by decide) a b⟩
    case hi32 => exact ⟨_, rfl, unpackhiN_zip (w := 4) (by decide) a b⟩
    case lo64 => exact ⟨_, rfl, by rw [unpacklo64_eqN]; exact unpackloN_zip (w := 8) (by decide) a b⟩
    case hi64 => exact ⟨_, rfl, unpackhiN_zip (w := 8) (by decide) a b⟩
  · have h : z.run256 s a b = vop2 (z.run128 s) a b := by cases s <;> first | contradiction | (cases z <;> rfl)
    obtain ⟨r, hr⟩ := vop2_total (fun a b => (zip128 z s a b).imp fun _ h => h.1) a b
    refine ⟨r, h.trans hr, ?_⟩
    refine VZip.vop2 z.dims.1 (fun a b r h => ?_) hr
    obtain ⟨r', h1, h2⟩ := zip128 z s a b
    rw [h1] at h; exact Option.some.inj h ▸ h2

/-- C52: every interleaving method never panics and interleaves the low or high elements of `a` and `b`. -/
theorem C52_zip128 (z : ZipM) (s : Isa) (a b : V128) :
    ∃ r, z.run128 s a b = some r ∧ Spec.Interleave z.par.1 z.par.2 a.toList b.toList r.toList := by
  obtain ⟨r, h, hz⟩ := zip128 z s a b
  exact ⟨r, h, hz.spec z.dims.1 (by decide) z.dims.2⟩
/-- C52: the 256-bit methods interleave within each 128-bit half. -/
theorem C52_zip256 (z : ZipM) (s : Isa) (a b : V256) :
    ∃ r, z.run256 s a b = some r ∧ Spec.Interleave z.par.1 z.par.2 a.toList b.toList r.toList := by
  obtain ⟨r, h, hz⟩ := zip256 z s a b
  exact ⟨r, h, hz.spec z.dims.1 (by decide) z.dims.2⟩

example : ∃ r, ZipM.run128 .hi32 .wasm128 (.ofList (List.replicate 8 0 ++ [1, 2, 3, 4])) (.ofList (List.replicate 8 0 ++ [5, 6, 7, 8])) = some r ∧
    r.toList.take 8 = [1, 2, 3, 4, 5, 6, 7, 8] := ⟨_, rfl, by decide +kernel⟩

/-- C52: the WASM128 and NEON branches of the methods that `Verif.Model.Simd` models by one lane function have the
constants of the source and interleave too. -/
theorem C52_zip_branches (a b : V128) :
    Spec.Interleave 1 0 a.toList b.toList (zip_lo8_wasm a b).toList ∧ Spec.Interleave 1 8 a.toList b.toList (zip_hi8_wasm a b).toList ∧
    Spec.Interleave 8 0 a.toList b.toList (zip_lo64_wasm a b).toList ∧ Spec.Interleave 8 0 a.toList b.toList (zip_lo64_neon a b).toList :=
  ⟨(wasm_zip (w := 1) (m := 16) (off := 0) rfl (by decide) (by decide) a b).spec (m := 16) rfl (by decide) (by decide),
   (wasm_zip (w := 1) (m := 16) (off := 8) rfl (by decide) (by decide) a b).spec (m := 16) rfl (by decide) (by decide),
   (wasm_zip (w := 8) (m := 2) (off := 0) rfl (by decide) (by decide) a b).spec (m := 2) rfl (by decide) (by decide),
   (pair64_zip 0 a b).spec (m := 2) rfl (by decide) (by decide)⟩

/-! ### De-interleaving -/

theorem everyOther_of {n} {w m off} (hm : w * m = n) (ho : off < 2) {a b r : Vec n}
    (h : ∀ j, j < m → r.getN w j = if 2 * j + off < m then a.getN w (2 * j + off) else b.getN w (2 * j + off - m)) :
    Spec.EveryOther w off (a.toList ++ b.toList) r.toList := by
  refine ⟨by simp; omega, fun j hj => ?_⟩
  rw [Vec.toList_length] at hj
  have hjm : j < m := by
    rcases Nat.eq_zero_or_pos w with h0 | h0
    · subst h0; simp at hj
    · rw [← hm, Nat.mul_div_cancel_left _ h0] at hj; exact hj
  have hb : ∀ i, i < m → w * (i + 1) ≤ n := fun i hi => by rw [← hm]; exact Nat.mul_le_mul_left _ hi
  rw [bits_eq r (hb j hjm), h j hjm]
  split
  · rename_i hlt
    rw [← bits_eq a (hb _ hlt), Spec.bits, Spec.bits]
    have := hb _ hlt
    have hd : w * (2 * j + off + 1) = w * (2 * j + off) + w := by rw [Nat.mul_add, Nat.mul_one]
    rw [List.drop_append_of_le_length (by simp; omega), List.take_append_of_le_length (by simp; omega)]
  · rename_i hge
    have hlt : 2 * j + off - m < m := by omega
    rw [← bits_eq b (hb _ hlt), Spec.bits, Spec.bits]
    have h1 : w * (2 * j + off) = n + w * (2 * j + off - m) := by
      rw [Nat.mul_sub, hm]
      have : w * m ≤ w * (2 * j + off) := Nat.mul_le_mul_left _ (by omega)
      omega
    have h2 : a.toList.length ≤ w * (2 * j + off) := by rw [Vec.toList_length]; omega
    rw [List.drop_append (l₁ := a.toList), List.drop_eq_nil_of_le (as := a.toList) h2, List.nil_append, Vec.toList_length, h1,
      show n + w * (2 * j + off - m) - n = w * (2 * j + off - m) by omega]

/-- C52: `u8x16_unzip_even`, `u8x16_unzip_odd`: the even or odd bytes of `a` followed by `b`. -/
theorem C52_unzip128 (s : Isa) (a b r : V128) :
    (u8x16_unzip_even s a b = some r → Spec.EveryOther 1 0 (a.toList ++ b.toList) r.toList) ∧
    (u8x16_unzip_odd s a b = some r → Spec.EveryOther 1 1 (a.toList ++ b.toList) r.toList) := by
  constructor
  · intro h
    have hr : r = uzp1_128 a b := by cases s <;> simp [u8x16_unzip_even, Isa.is] at h <;> exact h.symm
    subst hr
    refine everyOther_of (m := 16) rfl (by decide) fun j hj => ?_
    rw [getN_one, getN_one, getN_one, uzp1_128_lane]
    by_cases h8 : j < 8
    · rw [if_pos h8, if_pos (by omega)]; rfl
    · rw [if_neg h8, if_neg (by omega)]; congr 1; omega
  · intro h
    have hr : r = uzp2_128 a b ∨ r = wasm_shuffle 1 [1, 3, 5, 7, 9, 11, 13, 15, 17, 19, 21, 23, 25, 27, 29, 31] a b := by
      cases s <;> simp [u8x16_unzip_odd, Isa.is] at h <;> simp [← h]
    refine everyOther_of (m := 16) rfl (by decide) fun j hj => ?_
    rcases hr with rfl | rfl
    · rw [getN_one, getN_one, getN_one]
      show (if j < 8 then a.lane (2 * j + 1) else b.lane (2 * (j - 8) + 1)) = _
      by_cases h8 : j < 8
      · rw [if_pos h8, if_pos (by omega)]
      · rw [if_neg h8, if_neg (by omega)]; congr 1; omega
    · rw [wasm_shuffle, getN_ofN (by decide)]
      have : ∀ j, j < 16 → [1, 3, 5, 7, 9, 11, 13, 15, 17, 19, 21, 23, 25, 27, 29, 31].getD j 0 = 2 * j + 1 := by decide
      dsimp only
      rw [this j hj]

/-- C52: the WASM128 constants of `u8x16_unzip_even`. -/
theorem C52_unzip_branch (a b : V128) : Spec.EveryOther 1 0 (a.toList ++ b.toList) (unzip_even_wasm a b).toList := by
  refine everyOther_of (m := 16) rfl (by decide) fun j hj => ?_
  rw [unzip_even_wasm, wasm_shuffle, getN_ofN (by decide)]
  have : ∀ j, j < 16 → [0, 2, 4, 6, 8, 10, 12, 14, 16, 18, 20, 22, 24, 26, 28, 30].getD j 0 = 2 * j := by decide
  dsimp only
  rw [this j hj]; rfl

example : ∃ r, u8x16_unzip_odd .wasm128 (.ofList [1, 2, 3, 4]) (.ofList [5, 6]) = some r ∧ r.toList = [2, 4, 0, 0, 0, 0, 0, 0, 6, 0, 0, 0, 0, 0, 0, 0] :=
  ⟨_, rfl, by decide +kernel⟩

/-- Two 128-bit de-interleavings, of the halves of `a` and of the halves of `b`, de-interleave the 256-bit vectors. -/
theorem everyOther_join {w off} {a b : V256} {r0 r1 : V128} (hw : 16 % w = 0) (ho : off < 2) (h0 : Spec.EveryOther w off a.toList r0.toList)
    (h1 : Spec.EveryOther w off b.toList r1.toList) : Spec.EveryOther w off (a.toList ++ b.toList) (join r0 r1).toList := by
  have hl : (join r0 r1).toList = r0.toList ++ r1.toList := by rw [toList_split]; rfl
  obtain ⟨_, h0⟩ := h0
  obtain ⟨_, h1⟩ := h1
  rw [hl]
  refine ⟨by simp, fun j hj => ?_⟩
  simp only [List.length_append, Vec.toList_length] at hj h0 h1
  obtain ⟨m, hm⟩ := Nat.dvd_of_mod_eq_zero hw
  have hw0 : 0 < w := by rcases w with _ | w <;> omega
  have h16 : 16 / w = m := by rw [hm, Nat.mul_div_cancel_left _ hw0]
  have h32 : (16 + 16) / w = 2 * m := by rw [show 16 + 16 = w * (2 * m) by rw [Nat.mul_left_comm, ← hm], Nat.mul_div_cancel_left _ hw0]
  rw [h32] at hj; rw [h16] at h0 h1
  -- elements of a concatenation
  have hcat : ∀ (x y : List Byte) (k c : Nat), x.length = w * c → Spec.bits w (x ++ y) k = if k < c then Spec.bits w x k else Spec.bits w y (k - c) := by
    intro x y k c hx
    unfold Spec.bits
    split
    · rename_i hk
      have : w * (k + 1) ≤ w * c := Nat.mul_le_mul_left _ hk
      rw [Nat.mul_add, Nat.mul_one] at this
      rw [List.drop_append_of_le_length (by omega), List.take_append_of_le_length (by simp; omega)]
    · rename_i hk
      have : w * c ≤ w * k := Nat.mul_le_mul_left _ (by omega)
      rw [List.drop_append, List.drop_eq_nil_of_le (by omega), List.nil_append, Nat.mul_sub, hx]
  rw [hcat r0.toList r1.toList j m (by simpa using hm), hcat a.toList b.toList (2 * j + off) (2 * m) (by rw [Nat.mul_left_comm, ← hm]; simp)]
  by_cases hjm : j < m
  · rw [if_pos hjm, if_pos (by omega), h0 j hjm]
  · rw [if_neg hjm, if_neg (by omega), h1 (j - m) (by omega)]; congr 1; omega

/-- C52: `u8x32_unzip_even`, `u8x32_unzip_odd`: the even or odd bytes of `a` followed by `b`. -/
theorem C52_unzip256 (s : Isa) (a b r : V256) :
    (u8x32_unzip_even s a b = some r → Spec.EveryOther 1 0 (a.toList ++ b.toList) r.toList) ∧
    (u8x32_unzip_odd s a b = some r → Spec.EveryOther 1 1 (a.toList ++ b.toList) r.toList) := by
  have key : ∀ (f : V128 → V128 → Option V128), (do let ab ← f a.lo a.hi; let cd ← f b.lo b.hi; return join ab cd) = some r →
      ∃ r0 r1, f a.lo a.hi = some r0 ∧ f b.lo b.hi = some r1 ∧ r = join r0 r1 := by
    intro f h
    cases h0 : f a.lo a.hi with
    | none => simp [h0] at h
    | some r0 =>
      cases h1 : f b.lo b.hi with
      | none => simp [h0, h1] at h
      | some r1 => exact ⟨r0, r1, rfl, rfl, by simpa [h0, h1] using h.symm⟩
  constructor
  · intro h
    unfold u8x32_unzip_even at h
    split at h
    · exact absurd h nofun
    · obtain ⟨r0, r1, h0, h1, rfl⟩ := key _ h
      have e0 := (C52_unzip128 s _ _ _).1 h0
      have e1 := (C52_unzip128 s _ _ _).1 h1
      rw [← toList_split] at e0 e1
      exact everyOther_join (by decide) (by decide) e0 e1
  · intro h
    unfold u8x32_unzip_odd at h
    split at h
    · exact absurd h nofun
    · obtain ⟨r0, r1, h0, h1, rfl⟩ := key _ h
      have e0 := (C52_unzip128 s _ _ _).2 h0
      have e1 := (C52_unzip128 s _ _ _).2 h1
      rw [← toList_split] at e0 e1
      exact everyOther_join (by decide) (by decide) e0 e1

/-- Interleaving the two halves of a vector of four 64-bit lanes picks every other lane. -/
theorem everyOther64 {off} (ho : off < 2) {a : V256} {r : V128} (h : VZip 8 off a.lo a.hi r) : Spec.EveryOther 8 off a.toList r.toList := by
  rw [toList_split a]
  refine everyOther_of (m := 2) rfl ho fun j hj => ?_
  have := h 0 0 (by decide) (by decide)
  simp only [Nat.zero_mul, Nat.zero_add, Nat.mul_zero, Nat.add_zero] at this
  have hj' : j = 0 ∨ j = 1 := by omega
  rcases hj' with rfl | rfl
  · rw [if_pos (by omega), this.1]; simp
  · rw [if_neg (by omega), this.2]; congr 1; omega

theorem permute_zip {off} (a b z : V256) (ho : off < 2) (hz : VZip 8 off a b z) : Spec.EveryOther 8 off (a.toList ++ b.toList) (permute4x64 0b11011000 z).toList := by
  refine everyOther_of (m := 4) rfl ho fun j hj => ?_
  have hp : ∀ i k, i < 4 → 0b11011000 / 4 ^ i % 4 = k → (permute4x64 0b11011000 z).getN 8 i = z.getN 8 k := by
    intro i k _ hk
    apply getN_congr
    intro l hl
    show z.lane (0b11011000 / 4 ^ ((8 * i + l) / 8) % 4 * 8 + (8 * i + l) % 8) = _
    rw [show (8 * i + l) / 8 = i by omega, show (8 * i + l) % 8 = l by omega, hk, Nat.mul_comm]
  have h0 := hz 0 0 (by decide) (by decide)
  have h1 := hz 1 0 (by decide) (by decide)
  simp only [Nat.reduceDiv, Nat.zero_mul, Nat.zero_add, Nat.mul_zero, Nat.add_zero, Nat.one_mul, Nat.reduceAdd] at h0 h1
  have hj' : j = 0 ∨ j = 1 ∨ j = 2 ∨ j = 3 := by omega
  rcases hj' with rfl | rfl | rfl | rfl
  · rw [hp 0 0 (by decide) (by decide), h0.1, if_pos (by omega)]; congr 1; omega
  · rw [hp 1 2 (by decide) (by decide), h1.1, if_pos (by omega)]
  · rw [hp 2 1 (by decide) (by decide), h0.2, if_neg (by omega)]; congr 1; omega
  · rw [hp 3 3 (by decide) (by decide), h1.2, if_neg (by omega)]; congr 1; omega

/-- C52: `u64x4_unzip_even`, `u64x4_unzip_odd` never panic and take the even or odd 64-bit lanes of `a` followed by `b`. -/
theorem C52_unzip64 (s : Isa) (a b : V256) :
    (∃ r, u64x4_unzip_even s a b = some r ∧ Spec.EveryOther 8 0 (a.toList ++ b.toList) r.toList) ∧
    (∃ r, u64x4_unzip_odd s a b = some r ∧ Spec.EveryOther 8 1 (a.toList ++ b.toList) r.toList) := by
  by_cases hs : s = .avx2
  · subst hs
    obtain ⟨r0, h0, z0⟩ := zip256 .lo64 .avx2 a b
    obtain ⟨r1, h1, z1⟩ := zip256 .hi64 .avx2 a b
    refine ⟨⟨permute4x64 0b11011000 r0, ?_, permute_zip a b r0 (by decide) z0⟩, ⟨permute4x64 0b11011000 r1, ?_, permute_zip a b r1 (by decide) z1⟩⟩
    · obtain rfl := Option.some.inj h0; rfl
    · obtain rfl := Option.some.inj h1; rfl
  · have hA : s.is .AVX2 = false := by cases s <;> first | contradiction | rfl
    obtain ⟨r0, h0, z0⟩ := zip128 .lo64 s a.lo a.hi
    obtain ⟨r1, h1, z1⟩ := zip128 .lo64 s b.lo b.hi
    obtain ⟨r2, h2, z2⟩ := zip128 .hi64 s a.lo a.hi
    obtain ⟨r3, h3, z3⟩ := zip128 .hi64 s b.lo b.hi
    refine ⟨⟨join r0 r1, ?_, everyOther_join (by decide) (by decide) (everyOther64 (by decide) z0) (everyOther64 (by decide) z1)⟩,
      ⟨join r2 r3, ?_, everyOther_join (by decide) (by decide) (everyOther64 (by decide) z2) (everyOther64 (by decide) z3)⟩⟩
    · simp only [ZipM.run128] at h0 h1
      simp only [u64x4_unzip_even, hA, h0, h1]; rfl
    · simp only [ZipM.run128] at h2 h3
      simp only [u64x4_unzip_odd, hA, h2, h3]; rfl

example : ∃ r, u64x4_unzip_odd .avx2 (.ofList (List.replicate 8 0 ++ [1])) (.ofList (List.replicate 24 0 ++ [2])) = some r ∧
    r.toList.take 1 = [1] ∧ (r.toList.drop 24).take 1 = [2] := ⟨_, rfl, by decide +kernel, by decide +kernel⟩

/-- C52: `u8x8_unzip_even` takes the even bytes of `a` followed by `b`. -/
theorem C52_unzip_u8x8 (s : Isa) (a b r : V64) (h : u8x8_unzip_even s a b = some r) : Spec.EveryOther 1 0 (a.toList ++ b.toList) r.toList := by
  have hr : r = uzp1_64 a b := by cases s <;> simp [u8x8_unzip_even, Isa.is] at h <;> exact h.symm
  subst hr
  refine everyOther_of (m := 8) rfl (by decide) fun j hj => ?_
  rw [getN_one, getN_one, getN_one]
  show (if j < 4 then a.lane (2 * j) else b.lane (2 * (j - 4))) = _
  by_cases h8 : j < 4
  · rw [if_pos h8, if_pos (by omega)]; rfl
  · rw [if_neg h8, if_neg (by omega)]; congr 1; omega

/-! ### Byte swaps -/

/-- Lane form of `Spec.Reversed`. -/
theorem reversed_of {n w} (hw : 0 < w) {a r : Vec n} (h : ∀ i, i < n → r.lane i = a.lane (i / w * w + (w - 1 - i % w))) :
    Spec.Reversed w a.toList r.toList := by
  refine ⟨by simp, fun j hj => ?_⟩
  rw [Vec.toList_length] at hj
  have hb : w * (j + 1) ≤ n := by
    have h1 : w * (j + 1) ≤ w * (n / w) := Nat.mul_le_mul_left _ hj
    have := Nat.mul_div_le n w
    omega
  rw [Nat.mul_add, Nat.mul_one] at hb
  apply List.ext_getElem
  · simp
  · intro k hk1 hk2
    have hk : k < w := by simp at hk1; omega
    simp only [List.getElem_take, List.getElem_drop, List.getElem_reverse, List.length_take, List.length_drop, Vec.toList,
      List.getElem_map, List.getElem_range]
    rw [h _ (by omega)]
    have e1 : (w * j + k) / w = j := by rw [Nat.mul_add_div hw, Nat.div_eq_of_lt hk, Nat.add_zero]
    have e2 : (w * j + k) % w = k := by rw [Nat.mul_add_mod, Nat.mod_eq_of_lt hk]
    rw [e1, e2, Nat.mul_comm j w]
    congr 1
    simp
    omega

/-- The byte swap methods: element width and the two methods. -/
inductive BswapM where
  | b16 | b32 | b64
deriving DecidableEq, Repr
def BswapM.width : BswapM → Nat | .b16 => 2 | .b32 => 4 | .b64 => 8
def BswapM.run128 : BswapM → Isa → V128 → Option V128 | .b16 => u16x8_bswap | .b32 => u32x4_bswap | .b64 => u64x2_bswap
def BswapM.run256 : BswapM → Isa → V256 → Option V256 | .b16 => u16x16_bswap | .b32 => u32x8_bswap | .b64 => u64x4_bswap

/-- Where lane `i` of the swapped vector comes from. -/
def BswapM.src (t : BswapM) (i : Nat) : Nat := i / t.width * t.width + (t.width - 1 - i % t.width)

def BswapM.tab : BswapM → V128 | .b16 => SHUFFLE_U16X8 | .b32 => SHUFFLE_U32X4 | .b64 => SHUFFLE_U64X2

theorem BswapM.tab_lane (t : BswapM) : ∀ i, i < 16 → (t.tab.lane i).toNat = t.src i := by cases t <;> decide
theorem BswapM.src_lt (t : BswapM) {i} (h : i < 16) : t.src i < 16 := by cases t <;> simp only [src, width] <;> omega

theorem shuffle_rev (t : BswapM) (a : V128) (i) (hi : i < 16) : (shuffle_epi8 a t.tab).lane i = a.lane (t.src i) := by
  show (if (t.tab.lane i).toNat < 128 then a.lane (i / 16 * 16 + (t.tab.lane i).toNat % 16) else 0) = _
  have := t.src_lt hi
  rw [t.tab_lane i hi, if_pos (by omega)]; congr 1; omega
theorem tbl_rev (t : BswapM) (a : V128) (i) (hi : i < 16) : (tbl16 a t.tab).lane i = a.lane (t.src i) := by
  show (if (t.tab.lane i).toNat < 16 then a.lane (i / 16 * 16 + (t.tab.lane i).toNat) else 0) = _
  have := t.src_lt hi
  rw [t.tab_lane i hi, if_pos (by omega)]; congr 1; omega

theorem bswap128_lane (t : BswapM) (s : Isa) (a r : V128) (h : t.run128 s a = some r) : ∀ i, i < 16 → r.lane i = a.lane (t.src i) := by
  intro i hi
  cases s
  case sse2 => cases t <;> exact absurd (show (none : Option V128) = some r from h) (Option.some_ne_none r).symm
  case ssse3 => cases t <;> exact absurd (show (none : Option V128) = some r from h) (Option.some_ne_none r).symm
  case sse41 => cases t <;> obtain rfl := Option.some.inj h <;> first | exact shuffle_rev .b16 a i hi | exact shuffle_rev .b32 a i hi | exact shuffle_rev .b64 a i hi
  case avx2 => cases t <;> obtain rfl := Option.some.inj h <;> first | exact shuffle_rev .b16 a i hi | exact shuffle_rev .b32 a i hi | exact shuffle_rev .b64 a i hi
  case wasm128 => cases t <;> obtain rfl := Option.some.inj h <;> first | exact tbl_rev .b16 a i hi | exact tbl_rev .b32 a i hi | exact tbl_rev .b64 a i hi
  case neon32 => cases t <;> obtain rfl := Option.some.inj h <;> rfl
  case neon64 => cases t <;> obtain rfl := Option.some.inj h <;> rfl

/-- C52: every byte swap reverses the bytes of each element. -/
theorem C52_bswap128 (t : BswapM) (s : Isa) (a r : V128) (h : t.run128 s a = some r) : Spec.Reversed t.width a.toList r.toList :=
  reversed_of (by cases t <;> decide) (bswap128_lane t s a r h)

/-- C52: the 256-bit byte swaps reverse the bytes of each element. -/
theorem C52_bswap256 (t : BswapM) (s : Isa) (a r : V256) (h : t.run256 s a = some r) : Spec.Reversed t.width a.toList r.toList := by
  refine reversed_of (by cases t <;> decide) fun i hi => ?_
  show r.lane i = a.lane (t.src i)
  have hlo : i < 16 → t.src i < 16 := t.src_lt
  have hhi : 16 ≤ i → t.src i = t.src (i - 16) + 16 := by intro h; cases t <;> simp only [BswapM.src, BswapM.width] <;> omega
  by_cases hs : s = .avx2
  · subst hs
    have hr : r = shuffle_epi8 a t.tab.x2 := by cases t <;> exact (Option.some.inj h).symm
    subst hr
    show (if (t.tab.x2.lane i).toNat < 128 then a.lane (i / 16 * 16 + (t.tab.x2.lane i).toNat % 16) else 0) = _
    by_cases h16 : i < 16
    · have e : t.tab.x2.lane i = t.tab.lane i := if_pos h16
      rw [e, t.tab_lane i h16, if_pos (by omega)]; congr 1; omega
    · have e : t.tab.x2.lane i = t.tab.lane (i - 16) := if_neg h16
      have := t.src_lt (show i - 16 < 16 by omega)
      rw [e, t.tab_lane _ (by omega), if_pos (by omega), hhi (by omega)]; congr 1; omega
  · have hv : t.run256 s a = vop1 (t.run128 s) a := by cases s <;> first | contradiction | (cases t <;> rfl)
    rw [hv] at h
    unfold vop1 at h
    cases h0 : t.run128 s a.lo with
    | none => simp [h0] at h
    | some r0 =>
      cases h1 : t.run128 s a.hi with
      | none => simp [h0, h1] at h
      | some r1 =>
        have hr : r = join r0 r1 := by simpa [h0, h1] using h.symm
        rw [hr, join_lane]
        split
        · rename_i h16; rw [bswap128_lane t s _ _ h0 i h16, lo_lane]
        · rename_i h16; rw [bswap128_lane t s _ _ h1 _ (by omega), hi_lane, hhi (by omega), Nat.add_comm]

example : ∃ r, BswapM.run128 .b32 .neon64 (.ofList [1, 2, 3, 4, 5, 6, 7, 8]) = some r ∧ r.toList.take 8 = [4, 3, 2, 1, 8, 7, 6, 5] := ⟨_, rfl, by decide +kernel⟩

/-! ### Table lookups -/

/-- What a swizzle gives for a table of `m` bytes and the index `k`: the byte at `k` when `k < m`, zero from 128; `low` says whether the
indices in between use their low four bits (SSSE3) or give zero (NEON, WASM128). -/
def Looked (low : Bool) (tab : List Byte) (k : Byte) (r : Byte) : Prop :=
  (∀ h : k.toNat < tab.length, r = tab[k.toNat]) ∧ (128 ≤ k.toNat → r = 0) ∧
  (tab.length ≤ k.toNat → k.toNat < 128 → if low then r = tab.getD (k.toNat % 16) 0 else r = 0)

theorem shuffle_looked (a b : V128) (i : Nat) (hi : i < 16) : Looked true a.toList (b.lane i) ((shuffle_epi8 a b).lane i) := by
  have hs : (shuffle_epi8 a b).lane i = if (b.lane i).toNat < 128 then a.lane ((b.lane i).toNat % 16) else 0 := by
    show (if _ then a.lane (i / 16 * 16 + _) else 0) = _
    rw [show i / 16 * 16 = 0 by omega, Nat.zero_add]
  rw [hs]
  refine ⟨fun h => ?_, fun h => if_neg (by omega), fun _ h => ?_⟩
  · simp only [Vec.toList_length] at h
    rw [if_pos (by omega)]; simp [Vec.toList, Nat.mod_eq_of_lt h]
  · rw [if_pos h, if_pos rfl, toList_getD _ (Nat.mod_lt _ (by decide))]
theorem tbl_looked (a b : V128) (i : Nat) (hi : i < 16) : Looked false a.toList (b.lane i) ((tbl16 a b).lane i) := by
  have hs : (tbl16 a b).lane i = if (b.lane i).toNat < 16 then a.lane (b.lane i).toNat else 0 := by
    show (if _ then a.lane (i / 16 * 16 + _) else 0) = _
    rw [show i / 16 * 16 = 0 by omega, Nat.zero_add]
  rw [hs]
  refine ⟨fun h => ?_, fun h => if_neg (by omega), fun h1 h => ?_⟩
  · simp only [Vec.toList_length] at h
    rw [if_pos h]; simp [Vec.toList]
  · simp only [Vec.toList_length] at h1
    simp only [Bool.false_eq_true, if_false]
    rw [if_neg (by omega)]

/-- C52: `u8x16_swizzle` looks every index up in the 16-byte table. -/
theorem C52_swizzle128 (s : Isa) (a b r : V128) (h : u8x16_swizzle s a b = some r) (i : Nat) (hi : i < 16) :
    Looked (s.is .SSSE3) a.toList (b.lane i) (r.lane i) := by
  cases s <;> first
    | exact absurd (show (none : Option V128) = some r from h) (Option.some_ne_none r).symm
    | (obtain rfl := Option.some.inj h; exact shuffle_looked a b i hi)
    | (obtain rfl := Option.some.inj h; exact tbl_looked a b i hi)

/-- C52: `u8x16x2_swizzle` does so in each 128-bit half. -/
theorem C52_swizzle256 (s : Isa) (a b r : V256) (h : u8x16x2_swizzle s a b = some r) (i : Nat) (hi : i < 16) :
    Looked (s.is .SSSE3) a.lo.toList (b.lane i) (r.lane i) ∧ Looked (s.is .SSSE3) a.hi.toList (b.lane (16 + i)) (r.lane (16 + i)) := by
  by_cases hs : s = .avx2
  · subst hs
    obtain rfl := Option.some.inj h
    have h0 := shuffle_looked a.lo b.lo i hi
    have h1 := shuffle_looked a.hi b.hi i hi
    have e0 : (shuffle_epi8 a.lo b.lo).lane i = (shuffle_epi8 a b).lane i := by
      simp only [shuffle_epi8, lo_lane]
    have e1 : (shuffle_epi8 a.hi b.hi).lane i = (shuffle_epi8 a b).lane (16 + i) := by
      simp only [shuffle_epi8, hi_lane]
      rw [Nat.add_comm 16 i]
      split
      · congr 1; omega
      · rfl
    rw [e0, lo_lane] at h0
    rw [e1, hi_lane] at h1
    exact ⟨h0, h1⟩
  · have hv : u8x16x2_swizzle s a b = vop2 (u8x16_swizzle s) a b := by cases s <;> first | contradiction | rfl
    rw [hv] at h
    obtain ⟨r0, r1, h0, h1, rfl⟩ := vop2_some h
    have g0 := C52_swizzle128 s _ _ _ h0 i hi
    have g1 := C52_swizzle128 s _ _ _ h1 i hi
    rw [join_lane, join_lane, if_pos hi, if_neg (by omega), Nat.add_sub_cancel_left]
    rw [lo_lane] at g0; rw [hi_lane] at g1
    exact ⟨g0, g1⟩

example : Looked true [10, 11, 12, 13, 14, 15, 16, 17, 18, 19, 20, 21, 22, 23, 24, 25] 0x13 13 := by
  refine ⟨by decide, by decide, by decide⟩
example : ∃ r, u8x16_swizzle .ssse3 (.ofList [10, 11, 12]) (.ofList [2, 0x82, 0x12]) = some r ∧ r.toList.take 3 = [12, 0, 12] := ⟨_, rfl, by decide +kernel⟩
example : ∃ r, u8x16_swizzle .neon32 (.ofList [10, 11, 12]) (.ofList [2, 0x82, 0x12]) = some r ∧ r.toList.take 3 = [12, 0, 0] := ⟨_, rfl, by decide +kernel⟩

/-- C52: `u8x32_swizzle` (aarch64) looks every index up in the 32-byte table; an index of 32 or more gives zero. -/
theorem C52_swizzle32 (s : Isa) (a b r : V256) (h : u8x32_swizzle s a b = some r) (i : Nat) (_hi : i < 32) :
    s = .neon64 ∧ r.lane i = a.toList.getD (b.lane i).toNat 0 := by
  cases s <;> first
    | exact absurd (show (none : Option V256) = some r from h) (Option.some_ne_none r).symm
    | skip
  obtain rfl := Option.some.inj h
  refine ⟨rfl, ?_⟩
  show (if (b.lane i).toNat < 32 then a.lane (b.lane i).toNat else 0) = _
  split
  · rename_i hk; rw [toList_getD _ hk]
  · rename_i hk; rw [List.getD_eq_getElem?_getD, List.getElem?_eq_none (by simpa using hk)]; rfl

/-! ### Selections -/

/-- C52: `u16x8_blend::<IMM8>`: 16-bit lane `j` comes from `b` when bit `j` of the immediate is set, else from `a`. -/
theorem C52_blend16 (s : Isa) (imm : Nat) (a b r : V128) (h : u16x8_blend s imm a b = some r) (j : Nat) (hj : j < 8) :
    Spec.bits 2 r.toList j = if imm.testBit j then Spec.bits 2 b.toList j else Spec.bits 2 a.toList j := by
  have hr : r = blend16 imm a b := by cases s <;> simp [u16x8_blend, Isa.is] at h <;> exact h.symm
  subst hr
  rw [bits_eq _ (by omega), bits_eq _ (by omega), bits_eq _ (by omega)]
  have ht : (imm.testBit j = true) ↔ imm / 2 ^ j % 2 = 1 := by rw [Nat.testBit_eq_decide_div_mod_eq]; simp
  have hl : ∀ k, k < 2 → (blend16 imm a b).lane (2 * j + k) = if imm.testBit j then b.lane (2 * j + k) else a.lane (2 * j + k) := by
    intro k hk
    show (if imm / 2 ^ ((2 * j + k) / 2) % 2 = 1 then _ else _) = _
    rw [show (2 * j + k) / 2 = j by omega]
    by_cases hb : imm.testBit j = true
    · rw [if_pos (ht.1 hb), if_pos hb]
    · rw [if_neg (fun h => hb (ht.2 h)), if_neg hb]
  split <;> rename_i hb
  · rw [getN_congr fun k hk => (hl k hk).trans (if_pos hb)]
  · rw [getN_congr fun k hk => (hl k hk).trans (if_neg hb)]

/-- C52: `u32x8_blend::<IMM8>`: 32-bit lane `j` comes from `b` when bit `j` of the immediate is set, else from `a`. -/
theorem C52_blend32 (s : Isa) (imm : Nat) (a b r : V256) (h : u32x8_blend s imm a b = some r) (j : Nat) (hj : j < 8) :
    Spec.bits 4 r.toList j = if imm.testBit j then Spec.bits 4 b.toList j else Spec.bits 4 a.toList j := by
  have hr : r = blend32 imm a b := by cases s <;> simp [u32x8_blend, Isa.is] at h; exact h.symm
  subst hr
  rw [bits_eq _ (by omega), bits_eq _ (by omega), bits_eq _ (by omega)]
  have ht : (imm.testBit j = true) ↔ imm / 2 ^ j % 2 = 1 := by rw [Nat.testBit_eq_decide_div_mod_eq]; simp
  have hl : ∀ k, k < 4 → (blend32 imm a b).lane (4 * j + k) = if imm.testBit j then b.lane (4 * j + k) else a.lane (4 * j + k) := by
    intro k hk
    show (if imm / 2 ^ ((4 * j + k) / 4) % 2 = 1 then _ else _) = _
    rw [show (4 * j + k) / 4 = j by omega]
    by_cases hb : imm.testBit j = true
    · rw [if_pos (ht.1 hb), if_pos hb]
    · rw [if_neg (fun h => hb (ht.2 h)), if_neg hb]
  split <;> rename_i hb
  · rw [getN_congr fun k hk => (hl k hk).trans (if_pos hb)]
  · rw [getN_congr fun k hk => (hl k hk).trans (if_neg hb)]

example : ∃ r, u16x8_blend .sse41 0b10 (.ofList [1, 2, 3, 4]) (.ofList [5, 6, 7, 8]) = some r ∧ r.toList.take 4 = [1, 2, 7, 8] := ⟨_, rfl, by decide +kernel⟩

/-- C52: `u8x16_blendv`, `u8x32_blendv`: "if highbit(c) { b } else { a }", byte by byte. -/
theorem C52_blendv128 (s : Isa) (a b c r : V128) (h : u8x16_blendv s a b c = some r) (i : Nat) (_hi : i < 16) :
    r.lane i = if 128 ≤ (c.lane i).toNat then b.lane i else a.lane i := by
  have hr : r = blendv a b c := by cases s <;> simp [u8x16_blendv, Isa.is] at h <;> exact h.symm
  subst hr
  show (if (c.lane i).msb then _ else _) = _
  rw [BitVec.msb_eq_decide]; simp
theorem C52_blendv256 (s : Isa) (a b c r : V256) (h : u8x32_blendv s a b c = some r) (i : Nat) (hi : i < 32) :
    r.lane i = if 128 ≤ (c.lane i).toNat then b.lane i else a.lane i := by
  by_cases hs : s = .avx2
  · subst hs
    obtain rfl := Option.some.inj h
    show (if (c.lane i).msb then _ else _) = _
    rw [BitVec.msb_eq_decide]; simp
  · have hv : u8x32_blendv s a b c = vop3 (u8x16_blendv s) a b c := by cases s <;> first | contradiction | rfl
    rw [hv] at h
    unfold vop3 at h
    cases h0 : u8x16_blendv s a.lo b.lo c.lo with
    | none => simp [h0] at h
    | some r0 =>
      cases h1 : u8x16_blendv s a.hi b.hi c.hi with
      | none => simp [h0, h1] at h
      | some r1 =>
        have hr : r = join r0 r1 := by simpa [h0, h1] using h.symm
        rw [hr, join_lane]
        split
        · rename_i h16; rw [C52_blendv128 s _ _ _ _ h0 i h16]; simp only [lo_lane]
        · rename_i h16; rw [C52_blendv128 s _ _ _ _ h1 _ (by omega)]; simp only [hi_lane, show 16 + (i - 16) = i by omega]

example : ∃ r, u8x16_blendv .sse41 (.ofList [1, 2]) (.ofList [3, 4]) (.ofList [0x80, 0x7f]) = some r ∧ r.toList.take 2 = [3, 2] := ⟨_, rfl, by decide +kernel⟩

/-- C52: `u64x4_permute::<IMM8>`: 64-bit lane `j` is the lane numbered by the `j`-th pair of bits of the immediate. -/
theorem C52_permute64 (s : Isa) (imm : Nat) (a r : V256) (h : u64x4_permute s imm a = some r) (j : Nat) (hj : j < 4) :
    Spec.bits 8 r.toList j = Spec.bits 8 a.toList ((imm >>> (2 * j)) &&& 3) := by
  have hr : r = permute4x64 imm a := by cases s <;> simp [u64x4_permute, Isa.is] at h; exact h.symm
  subst hr
  have he : (imm >>> (2 * j)) &&& 3 = imm / 4 ^ j % 4 := by
    rw [show 3 = 2 ^ 2 - 1 by decide, Nat.and_two_pow_sub_one_eq_mod, Nat.shiftRight_eq_div_pow, Nat.pow_mul]
  have := Nat.mod_lt (imm / 4 ^ j) (show 0 < 4 by decide)
  rw [he, bits_eq _ (by omega), bits_eq _ (by omega)]
  rw [getN_congr (b := a) (j := imm / 4 ^ j % 4)]
  intro l hl
  show a.lane (imm / 4 ^ ((8 * j + l) / 8) % 4 * 8 + (8 * j + l) % 8) = _
  rw [show (8 * j + l) / 8 = j by omega, show (8 * j + l) % 8 = l by omega, Nat.mul_comm]

example : ∃ r, u64x4_permute .avx2 0b11011000 (.ofList (List.replicate 8 0 ++ [1, 2])) = some r ∧ (r.toList.drop 16).take 2 = [1, 2] :=
  ⟨_, rfl, by decide +kernel⟩

/-- C52: `v128x2_zip_lo`, `v128x2_zip_hi`: the low (high) halves of `a` and `b`, on every instruction set. -/
theorem C52_zip_halves (s : Isa) (a b : V256) :
    (∃ r, v128x2_zip_lo s a b = some r ∧ r.toList = a.toList.take 16 ++ b.toList.take 16) ∧
    (∃ r, v128x2_zip_hi s a b = some r ∧ r.toList = a.toList.drop 16 ++ b.toList.drop 16) := by
  refine ⟨⟨_, v128x2_zip_lo_eq s a b, ?_⟩, ⟨_, v128x2_zip_hi_eq s a b, ?_⟩⟩
  · rw [toList_split, toList_split a, toList_split b]; simp; rfl
  · rw [toList_split, toList_split a, toList_split b]; simp; rfl

end Vsimd
end Simd
