import Verif.Lemmas.Ascii
import Verif.Spec.Unicode
/-
Every implementation of `is_utf32le` tests that all words are Unicode scalar values.
-/
namespace Simd

theorem byteOf_append32 (a b c d : Byte) : byteOf (a ++ b ++ c ++ d : BitVec 32) 0 = d ∧ byteOf (a ++ b ++ c ++ d : BitVec 32) 1 = c ∧
    byteOf (a ++ b ++ c ++ d : BitVec 32) 2 = b ∧ byteOf (a ++ b ++ c ++ d : BitVec 32) 3 = a := by
  have ht : (a ++ b ++ c ++ d : BitVec 32).toNat = ((a.toNat * 256 + b.toNat) * 256 + c.toNat) * 256 + d.toNat := by
    simp only [BitVec.toNat_append]
    rw [← Nat.shiftLeft_add_eq_or_of_lt b.isLt, ← Nat.shiftLeft_add_eq_or_of_lt c.isLt, ← Nat.shiftLeft_add_eq_or_of_lt d.isLt]
    simp only [Nat.shiftLeft_eq]
  have ha := a.isLt; have hb := b.isLt; have hc := c.isLt; have hd := d.isLt
  refine ⟨?_, ?_, ?_, ?_⟩ <;> apply BitVec.eq_of_toNat_eq <;> rw [Vs.byteOf_toNat, ht] <;> simp <;> omega

namespace Vs
open IsaId Intrin

theorem get32_of32 {n} (f j) : (Vec.of32 f : Vec n).get32 j = f j := by
  apply BitVec.eq_of_toNat_eq
  have := (f j).isLt
  rw [get32_toNat, of32_lane0, of32_lane1, of32_lane2, of32_lane3]
  omega

theorem xor_get32 {n} (a b : Vec n) (j) : (Intrin.xor a b).get32 j = a.get32 j ^^^ b.get32 j := by
  simp only [Vec.get32, Intrin.xor, map8_lane]
  have step : ∀ {n : Nat} {x y z : BitVec n} (_ : x ^^^ y = z) (a b : Byte), (x ++ a) ^^^ (y ++ b) = z ++ (a ^^^ b) := by
    intro n x y z h a b; rw [BitVec.xor_append, h]
  exact (step (step (step rfl _ _) _ _) _ _).symm

theorem xor_of32 {n} (f g) : Intrin.xor (Vec.of32 f : Vec n) (Vec.of32 g) = Vec.of32 fun j => f j ^^^ g j := by
  apply Vec.ext; intro i
  simp only [Intrin.xor, map8_lane, of32_lane, byteOf]
  rw [BitVec.extractLsb'_xor]

theorem set32_get32 {n} (x j) : (set1_32 x : Vec n).get32 j = x := get32_of32 _ _

theorem xor_msb_toNat (x : BitVec 32) : (x ^^^ 0x80000000#32).toNat = (x.toNat + 2 ^ 31) % 2 ^ 32 := by
  have hx := x.isLt
  rw [BitVec.toNat_xor]
  have h1 : (x.toNat ^^^ (0x80000000#32).toNat) % 2 ^ 31 = x.toNat % 2 ^ 31 := by
    rw [Nat.xor_mod_two_pow]; simp
  have h2 : (x.toNat ^^^ (0x80000000#32).toNat) / 2 ^ 31 = (x.toNat / 2 ^ 31) ^^^ 1 := by
    rw [← Nat.shiftRight_eq_div_pow, Nat.shiftRight_xor_distrib, Nat.shiftRight_eq_div_pow]; rfl
  have h3 : x.toNat / 2 ^ 31 = 0 ∨ x.toNat / 2 ^ 31 = 1 := by omega
  rcases h3 with h3 | h3 <;> rw [h3] at h2 <;> simp only [Nat.zero_xor, Nat.xor_self] at h2 <;> omega

theorem slt_flip (x y : BitVec 32) : (x ^^^ 0x80000000#32).slt (y ^^^ 0x80000000#32) = x.ult y := by
  have hx := x.isLt; have hy := y.isLt
  have h1 := xor_msb_toNat x; have h2 := xor_msb_toNat y
  rw [Bool.eq_iff_iff, BitVec.slt_iff_toInt_lt, BitVec.ult_iff_toNat_lt, BitVec.toInt_eq_toNat_cond, BitVec.toInt_eq_toNat_cond, h1, h2]
  split <;> split <;> omega

section
variable {s : Isa}

theorem lt_u32_flip {n} (a b : Vec n) : lt_i32 (Intrin.xor a (set1_32 0x80000000)) (Intrin.xor b (set1_32 0x80000000)) = lt_u32 a b := by
  unfold lt_i32 lt_u32 map32
  congr 1; funext j
  rw [xor_get32, xor_get32, set32_get32, BitVec.ofNat_eq_ofNat]
  exact congrArg (maskOf 32) (slt_flip _ _)

theorem lt_u32_via_max {n} (a b : Vec n) : Intrin.xor (eq32 a (max_u32 a b)) (eq32 a a) = lt_u32 a b := by
  unfold eq32 lt_u32 map32
  rw [xor_of32]
  congr 1; funext j
  unfold max_u32 map32
  rw [get32_of32]
  generalize a.get32 j = x
  generalize b.get32 j = y
  cases h : x.ult y
  · simp [maskOf, h]
  · have : x ≠ y := by rintro rfl; rw [BitVec.ult_iff_toNat_lt] at h; omega
    simp [maskOf, this, h]

theorem u32x4_lt_eq (a b) : u32x4_lt s a b = some (lt_u32 a b) := by
  cases s <;> simp [u32x4_lt, Isa.is, ← lt_u32_flip a b]

theorem u32x8_lt_eq (a b) : u32x8_lt s a b = some (lt_u32 a b) := by
  unfold u32x8_lt
  split
  · rw [lt_u32_via_max]
  · rw [vop2_eq u32x4_lt_eq]; unfold lt_u32; rw [join_map32]

theorem u32x8_max_eq (hs : s ≠ .sse2 ∧ s ≠ .ssse3) (a b) : u32x8_max s a b = some (max_u32 a b) := by
  have h : ∀ a b, u32x4_max s a b = some (max_u32 a b) := by
    intro a b; obtain ⟨h1, h2⟩ := hs; cases s <;> simp [u32x4_max, Isa.is] at h1 h2 ⊢
  unfold u32x8_max
  split
  · rfl
  · rw [vop2_eq h]; unfold max_u32; rw [join_map32]

end
end Vs

namespace Unicode
open Vs IsaId Intrin

theorem xor_d800 (x : BitVec 32) : (x ^^^ 0xD800#32).toNat = x.toNat / 65536 * 65536 + ((x.toNat / 2048 % 32) ^^^ 27) * 2048 + x.toNat % 2048 := by
  rw [BitVec.toNat_xor, show (0xD800#32).toNat = 0xD800 from rfl]
  have h1 : (x.toNat ^^^ 0xD800) % 2 ^ 11 = x.toNat % 2 ^ 11 := by rw [Nat.xor_mod_two_pow]; simp
  have h2 : (x.toNat ^^^ 0xD800) / 2 ^ 11 = (x.toNat / 2 ^ 11) ^^^ 27 := by
    rw [← Nat.shiftRight_eq_div_pow, Nat.shiftRight_xor_distrib, Nat.shiftRight_eq_div_pow]; rfl
  have h3 : ((x.toNat / 2 ^ 11) ^^^ 27) % 2 ^ 5 = (x.toNat / 2 ^ 11 % 2 ^ 5) ^^^ 27 := by rw [Nat.xor_mod_two_pow]
  have h4 : ((x.toNat / 2 ^ 11) ^^^ 27) / 2 ^ 5 = x.toNat / 2 ^ 11 / 2 ^ 5 := by
    rw [← Nat.shiftRight_eq_div_pow _ 5, Nat.shiftRight_xor_distrib, Nat.shiftRight_eq_div_pow]; simp
  simp only [Nat.reducePow] at h1 h2 h3 h4
  omega

instance (x : BitVec 32) : Decidable (Spec.IsScalar x) :=
  inferInstanceAs (Decidable (x.toNat ≤ 0x10FFFF ∧ ¬ (0xD800 ≤ x.toNat ∧ x.toNat ≤ 0xDFFF)))

theorem scalar_spec (x : BitVec 32) : is_unicode_scalar_value x = decide (Spec.IsScalar x) := by
  rw [Bool.eq_iff_iff, decide_eq_true_iff]
  unfold is_unicode_scalar_value Spec.IsScalar
  have hx := x.isLt
  have h := xor_d800 x
  have hk : ∀ a, a < 32 → (a ^^^ 27 < 32 ∧ (a ^^^ 27 = 0 ↔ a = 27)) := by decide
  obtain ⟨h1, h2⟩ := hk (x.toNat / 2048 % 32) (by omega)
  rw [BitVec.ult_iff_toNat_lt, BitVec.toNat_sub]
  simp only [BitVec.ofNat_eq_ofNat]
  rw [h, show (0x800#32).toNat = 0x800 from rfl, show (0x110000#32 - 0x800#32).toNat = 0x10F800 from rfl]
  generalize (x.toNat / 2048 % 32) ^^^ 27 = t at *
  omega

/-- All words (groups of four bytes) are scalar values. -/
def scalarsOk : List Byte → Bool
  | a :: b :: c :: d :: xs => is_unicode_scalar_value (le32 [a, b, c, d]) && scalarsOk xs
  | _ => true

theorem scalarsOk_append : ∀ (k : Nat) {xs : List Byte} (ys), xs.length = 4 * k → scalarsOk (xs ++ ys) = (scalarsOk xs && scalarsOk ys)
  | 0, xs, ys, h => by rw [List.length_eq_zero_iff.1 (show xs.length = 0 by omega)]; simp [scalarsOk]
  | k + 1, a :: b :: c :: d :: xs, ys, h => by
    simp only [List.cons_append, scalarsOk, scalarsOk_append k (xs := xs) ys (by simp at h; omega), Bool.and_assoc]
  | k + 1, [], _, h => by simp at h
  | k + 1, [_], _, h => by simp at h; omega
  | k + 1, [_, _], _, h => by simp at h; omega
  | k + 1, [_, _, _], _, h => by simp at h; omega

theorem scalarsOk_one {xs : List Byte} (h : xs.length = 4) : scalarsOk xs = is_unicode_scalar_value (le32 xs) := by
  match xs, h with
  | [a, b, c, d], _ => simp [scalarsOk]

theorem scalarsOk_iff : ∀ (k : Nat) {xs : List Byte}, xs.length = 4 * k →
    (scalarsOk xs = true ↔ ∀ j, j < k → is_unicode_scalar_value (xs.getD (4 * j + 3) 0 ++ xs.getD (4 * j + 2) 0 ++ xs.getD (4 * j + 1) 0 ++ xs.getD (4 * j) 0) = true)
  | 0, xs, h => by rw [List.length_eq_zero_iff.1 (show xs.length = 0 by omega)]; simp [scalarsOk]
  | k + 1, a :: b :: c :: d :: xs, h => by
    rw [scalarsOk, Bool.and_eq_true, scalarsOk_iff k (xs := xs) (by simp at h; omega)]
    constructor
    · rintro ⟨h1, h2⟩ j hj
      cases j with
      | zero => exact h1
      | succ j => exact h2 j (by omega)
    · intro h
      exact ⟨h 0 (by omega), fun j hj => h (j + 1) (by omega)⟩
  | k + 1, [], h => by simp at h
  | k + 1, [_], h => by simp at h; omega
  | k + 1, [_, _], h => by simp at h; omega
  | k + 1, [_, _, _], h => by simp at h; omega

theorem utf32_fallback_loop_wp : ∀ {k m p xs flag} {Q : Bool → Mem → Prop} {E}, xs.length = 4 * k → HasBytes m p xs → Q (flag && scalarsOk xs) m →
    wp (is_utf32le_fallback_loop (p.off + 4 * k) p flag) Q E m := by
  intro k
  induction k with
  | zero =>
    intro m p xs flag Q E hl hx hQ
    have := List.length_eq_zero_iff.1 (show xs.length = 0 by omega)
    subst this
    rw [is_utf32le_fallback_loop, if_neg (by omega), wp_pure]; simpa [scalarsOk] using hQ
  | succ k ih =>
    intro m p xs flag Q E hl hx hQ
    have hb := hx.bound
    have h4 : (xs.take 4).length = 4 := by rw [List.length_take]; omega
    rw [is_utf32le_fallback_loop, if_pos (by omega)]
    simp only [wp_bind, wp_loadBytes_iff (hx.take 4) h4, wp_padd]
    refine ⟨by omega, ?_⟩
    have := ih (p := p.add 4) (flag := flag && is_unicode_scalar_value (le32 (xs.take 4))) (Q := Q) (E := E) (xs := xs.drop 4) (by rw [List.length_drop]; omega)
      (hx.drop 4 (by omega)) (by
        rwa [← scalarsOk_one h4, Bool.and_assoc, ← scalarsOk_append 1 _ h4, List.take_append_drop])
    rwa [show (p.add 4).off + 4 * k = p.off + 4 * (k + 1) by simp; omega] at this

theorem utf32_fallback_tests {m p xs k} (hx : HasBytes m p xs) (hl : xs.length = 4 * k) : Tests (is_utf32le_fallback p k) (scalarsOk xs) m := by
  have hb := hx.bound
  unfold is_utf32le_fallback Tests
  rw [wp_bind, wp_padd]
  refine ⟨by omega, ?_⟩
  exact utf32_fallback_loop_wp hl hx ⟨by simp, rfl⟩

/-- Some 32-bit lane exceeds the bound. -/
def big (y : V256) : Bool := anyLane 8 fun j => (0x10F7FF#32).ult (y.get32 j)

theorem utf32_step_eq {s : Isa} (hs : s ≠ .sse2 ∧ s ≠ .ssse3) {xs : List Byte} (hl : xs.length = 32) (y : V256) :
    ∃ y', utf32_step s (.ofList xs) y = some y' ∧ big y' = (big y || !scalarsOk xs) := by
  refine ⟨max_u32 y (sub32 (Intrin.xor (.ofList xs) (set1_32 0xD800)) (set1_32 0x800)), ?_, ?_⟩
  · simp [utf32_step, u32x8_max_eq hs]
  · have hk := scalarsOk_iff 8 (xs := xs) (by omega)
    rw [Bool.eq_iff_iff, Bool.or_eq_true, Bool.not_eq_true', Bool.eq_false_iff, ne_eq, hk]
    unfold big
    simp only [anyLane_iff]
    have hm : ∀ a b : BitVec 32, (0x10F7FF#32).ult (if a.ult b then b else a) = ((0x10F7FF#32).ult a || (0x10F7FF#32).ult b) := by
      intro a b
      rw [Bool.eq_iff_iff, Bool.or_eq_true]
      split <;> rename_i h <;> simp only [BitVec.ult_iff_toNat_lt] at h ⊢ <;> omega
    have hlane : ∀ j, (max_u32 y (sub32 (Intrin.xor (.ofList xs) (set1_32 0xD800)) (set1_32 0x800))).get32 j =
        if (y.get32 j).ult (((Vec.ofList xs : V256).get32 j ^^^ 0xD800) - 0x800) then ((Vec.ofList xs : V256).get32 j ^^^ 0xD800) - 0x800 else y.get32 j := by
      intro j
      unfold max_u32 sub32 map32
      rw [get32_of32, get32_of32, xor_get32, set32_get32, set32_get32]
    have hv : ∀ j, (0x10F7FF#32).ult (((Vec.ofList xs : V256).get32 j ^^^ 0xD800) - 0x800) = 
        !is_unicode_scalar_value (xs.getD (4 * j + 3) 0 ++ xs.getD (4 * j + 2) 0 ++ xs.getD (4 * j + 1) 0 ++ xs.getD (4 * j) 0) := by
      intro j
      unfold is_unicode_scalar_value
      rw [show (Vec.ofList xs : V256).get32 j = xs.getD (4 * j + 3) 0 ++ xs.getD (4 * j + 2) 0 ++ xs.getD (4 * j + 1) 0 ++ xs.getD (4 * j) 0 from rfl]
      generalize ((_ : BitVec 32) ^^^ 0xD800) - 0x800 = z
      rw [Bool.eq_iff_iff, Bool.not_eq_true', Bool.eq_false_iff, ne_eq, BitVec.ult_iff_toNat_lt, BitVec.ult_iff_toNat_lt,
        show (0x10F7FF#32).toNat = 0x10F7FF from rfl, show (0x110000 - 0x800 : BitVec 32).toNat = 0x10F800 from rfl]
      omega
    simp only [hlane, hm, hv, Bool.or_eq_true]
    constructor
    · rintro ⟨j, hj, h | h⟩
      · exact .inl ⟨j, hj, h⟩
      · right; intro hc; rw [hc j hj] at h; cases h
    · rintro (⟨j, hj, h⟩ | h)
      · exact ⟨j, hj, .inl h⟩
      · obtain ⟨j, h⟩ := Classical.not_forall.1 h
        obtain ⟨hj, h⟩ := Classical.not_imp.1 h
        exact ⟨j, hj, .inr (by simpa using h)⟩

theorem utf32_final_eq {s : Isa} (hs : s ≠ .sse2 ∧ s ≠ .ssse3) (y : V256) : utf32_final s y = some (!big y) := by
  unfold utf32_final
  simp only [u32x8_splat_eq, u32x8_lt_eq, Option.bind_eq_bind, Option.bind_some, v256_all_zero_eq s hs]
  congr 1
  unfold big
  rw [Bool.eq_iff_iff, Bool.not_eq_true', anyLane_false, allLane_iff]
  have hl : ∀ i, (lt_u32 (set1_32 (0x110000 - 0x800 - 1)) y).lane i = byteOf (maskOf 32 ((0x10F7FF#32).ult (y.get32 (i / 4)))) (i % 4) := by
    intro i
    unfold lt_u32 map32
    rw [of32_lane, set32_get32]; rfl
  have hb : ∀ (b : Bool) k, k < 4 → (byteOf (maskOf 32 b) k == 0#8) = !b := by decide
  simp only [hl]
  constructor
  · intro h j hj
    have := h (4 * j) (by omega)
    rw [hb _ _ (by omega), show 4 * j / 4 = j by omega] at this
    simpa using this
  · intro h i hi
    rw [hb _ _ (by omega), h (i / 4) (by omega)]; rfl

theorem utf32_loop_wp {s : Isa} (hs : s ≠ .sse2 ∧ s ≠ .ssse3) : ∀ {k m p xs y} {Q : Ptr × V256 → Mem → Prop} {E}, xs.length = 32 * k → HasBytes m p xs →
    (∀ y', big y' = (big y || !scalarsOk xs) → Q (p.add (32 * k), y') m) →
    wp (is_utf32le_loop8 s (p.off + 32 * k) p y) Q E m := by
  intro k
  induction k with
  | zero =>
    intro m p xs y Q E hl hx hQ
    have := List.length_eq_zero_iff.1 (show xs.length = 0 by omega)
    subst this
    rw [is_utf32le_loop8, if_neg (by omega)]; exact hQ y (by simp [scalarsOk])
  | succ k ih =>
    intro m p xs y Q E hl hx hQ
    have hb := hx.bound
    have h32 : (xs.take 32).length = 32 := by rw [List.length_take]; omega
    obtain ⟨y1, h1, hy1⟩ := utf32_step_eq hs h32 y
    rw [is_utf32le_loop8, if_pos (by omega)]
    simp only [wp_bind, wp_v256_load (hx.take 32) h32, h1, wp_liftO_some, wp_padd]
    refine ⟨by omega, ?_⟩
    have := ih (p := p.add 32) (y := y1) (Q := Q) (E := E) (xs := xs.drop 32) (by rw [List.length_drop]; omega)
      (hx.drop 32 (by omega)) (by
        intro y' hy'
        have := hQ y' (by
          rw [hy', hy1, Bool.or_assoc, ← Bool.not_and, ← scalarsOk_append 8 _ h32, List.take_append_drop])
        rwa [Ptr.add_add, show 32 + 32 * k = 32 * (k + 1) by omega])
    rwa [show (p.add 32).off + 32 * k = p.off + 32 * (k + 1) by simp; omega] at this

theorem utf32_simd_tests {s : Isa} (hs : s ≠ .sse2 ∧ s ≠ .ssse3) {m p xs k} (hx : HasBytes m p xs) (hl : xs.length = 4 * k) :
    Tests (is_utf32le_simd s p k) (scalarsOk xs) m := by
  have hb := hx.bound
  unfold is_utf32le_simd Tests
  simp only [u32x8_splat_eq, wp_bind, wp_liftO_some, wp_padd, utf32_final_eq hs]
  rw [show 4 * (k / 8 * 8) = 32 * (k / 8) by omega]
  refine ⟨by omega, ?_⟩
  have h8 : (xs.take (32 * (k / 8))).length = 4 * (8 * (k / 8)) := by rw [List.length_take]; omega
  refine utf32_loop_wp hs (xs := xs.take (32 * (k / 8))) (by omega) (hx.take _) ?_
  intro y' hy'
  have hz : big (set1_32 0) = false := by unfold big; rw [anyLane_false]; intro i _; rw [set32_get32]; rfl
  rw [hz, Bool.false_or] at hy'
  refine wp_mono (utf32_fallback_tests (hx.drop (32 * (k / 8)) (by omega)) (by rw [List.length_drop]; omega)) ?_ ?_
  · rintro _ _ ⟨rfl, rfl⟩
    simp only [wp_pure, and_true, hy', Bool.not_not]
    rw [← scalarsOk_append _ _ h8, List.take_append_drop]
  · exact fun _ h => h

theorem is_utf32le_tests {i : Option Isa} (hi : i ≠ some .sse2 ∧ i ≠ some .ssse3) {m p xs k} (hx : HasBytes m p xs) (hl : xs.length = 4 * k) :
    Tests (is_utf32le_auto i p k) (scalarsOk xs) m := by
  cases i with
  | none => exact utf32_fallback_tests hx hl
  | some s => exact utf32_simd_tests ⟨fun h => hi.1 (by rw [h]), fun h => hi.2 (by rw [h])⟩ hx hl

/-! ### Words -/

theorem wordBytes_length {w : Nat} (n : Nat) (ws : List (BitVec w)) : (Spec.wordBytes n ws).length = n * ws.length := by
  induction ws with
  | nil => simp [Spec.wordBytes]
  | cons a ws ih =>
    have : Spec.wordBytes n (a :: ws) = (List.range n).map (Spec.wordByte a) ++ Spec.wordBytes n ws := rfl
    rw [this, List.length_append, ih]; simp [Nat.mul_succ, Nat.add_comm]

theorem wordBytes_cons {w : Nat} (n : Nat) (a : BitVec w) (ws : List (BitVec w)) :
    Spec.wordBytes n (a :: ws) = (List.range n).map (Spec.wordByte a) ++ Spec.wordBytes n ws := rfl

theorem le32_wordBytes (x : BitVec 32) : le32 ((List.range 4).map (Spec.wordByte x)) = x := by
  apply BitVec.eq_of_toNat_eq
  have hx := x.isLt
  show (Spec.wordByte x 3 ++ Spec.wordByte x 2 ++ Spec.wordByte x 1 ++ Spec.wordByte x 0).toNat = _
  simp only [BitVec.toNat_append]
  rw [← Nat.shiftLeft_add_eq_or_of_lt (Spec.wordByte x 2).isLt, ← Nat.shiftLeft_add_eq_or_of_lt (Spec.wordByte x 1).isLt, ← Nat.shiftLeft_add_eq_or_of_lt (Spec.wordByte x 0).isLt]
  simp only [Nat.shiftLeft_eq, Spec.wordByte, BitVec.toNat_ofNat]
  omega

theorem scalarsOk_words (ws : List (BitVec 32)) : scalarsOk (Spec.wordBytes 4 ws) = decide (∀ w ∈ ws, Spec.IsScalar w) := by
  induction ws with
  | nil => simp [Spec.wordBytes, scalarsOk]
  | cons a ws ih =>
    rw [wordBytes_cons, scalarsOk_append 1 _ (by simp), scalarsOk_one (by simp), le32_wordBytes, ih, scalar_spec]
    simp

end Unicode
end Simd
