import Verif.Spec.Order
import Verif.Lemmas.Rfc
/-
The order of base encodings: groups of bits compared with the bytes they are taken from.
-/
namespace Simd
open Spec

theorem before_irrefl : ∀ a : List Byte, ¬ Before a a
  | [] => fun h => h
  | x :: xs => fun h => by
    rcases h with h | ⟨-, h⟩
    · omega
    · exact before_irrefl xs h

theorem before_asymm : ∀ a b : List Byte, Before a b → ¬ Before b a
  | [], [], h => fun _ => h
  | _ :: _, [], h => fun _ => h
  | [], _ :: _, _ => fun h => h
  | x :: xs, y :: ys, h => fun h' => by
    rcases h with h | ⟨h0, h⟩
    · rcases h' with h' | ⟨h', -⟩
      · omega
      · subst h'; omega
    · rcases h' with h' | ⟨-, h'⟩
      · subst h0; omega
      · exact before_asymm xs ys h h'

theorem before_total : ∀ a b : List Byte, Before a b ∨ a = b ∨ Before b a
  | [], [] => .inr (.inl rfl)
  | [], _ :: _ => .inl trivial
  | _ :: _, [] => .inr (.inr trivial)
  | x :: xs, y :: ys => by
    by_cases h : x = y
    · subst h
      rcases before_total xs ys with h | h | h
      · exact .inl (.inr ⟨rfl, h⟩)
      · exact .inr (.inl (by rw [h]))
      · exact .inr (.inr (.inr ⟨rfl, h⟩))
    · have : x.toNat ≠ y.toNat := fun he => h (BitVec.eq_of_toNat_eq he)
      rcases Nat.lt_or_gt_of_ne this with h | h
      · exact .inl (.inl h)
      · exact .inr (.inr (.inl h))

/-- A map that preserves the order also reflects it. -/
theorem before_iff_of_mono {f : List Byte → List Byte} (hf : ∀ a b, Before a b → Before (f a) (f b)) (a b : List Byte) :
    Before (f a) (f b) ↔ Before a b := by
  refine ⟨fun h => ?_, hf a b⟩
  rcases before_total a b with h' | h' | h'
  · exact h'
  · subst h'; exact absurd h (before_irrefl _)
  · exact absurd (hf b a h') (before_asymm _ _ h)

/-- Where two byte strings differ first. -/
theorem before_cases : ∀ {a b : List Byte}, Before a b →
    (∃ z zs, b = a ++ z :: zs) ∨ ∃ c x xs y ys, a = c ++ x :: xs ∧ b = c ++ y :: ys ∧ x.toNat < y.toNat
  | [], [], h => False.elim h
  | _ :: _, [], h => False.elim h
  | [], y :: ys, _ => .inl ⟨y, ys, rfl⟩
  | x :: xs, y :: ys, h => by
    rcases h with h | ⟨rfl, h⟩
    · exact .inr ⟨[], x, xs, y, ys, rfl, rfl, h⟩
    · rcases before_cases h with ⟨z, zs, rfl⟩ | ⟨c, x', xs', y', ys', rfl, rfl, h'⟩
      · exact .inl ⟨z, zs, rfl⟩
      · exact .inr ⟨x :: c, x', xs', y', ys', rfl, rfl, h'⟩

/-- Tabulated strings: equal up to an index at which the first is smaller or ended. -/
theorem before_range {f g : Nat → Byte} {n m : Nat} {j : Nat} (hm : j < m) (he : ∀ i, i < j → i < n → f i = g i)
    (hj : n ≤ j ∨ (f j).toNat < (g j).toNat) : Before ((List.range n).map f) ((List.range m).map g) := by
  induction j generalizing f g n m with
  | zero =>
    obtain ⟨m, rfl⟩ : ∃ m', m = m' + 1 := ⟨m - 1, by omega⟩
    cases n with
    | zero => rw [List.range_succ_eq_map]; trivial
    | succ n =>
      rw [List.range_succ_eq_map, List.range_succ_eq_map]
      exact .inl (hj.resolve_left (by omega))
  | succ j ih =>
    obtain ⟨m, rfl⟩ : ∃ m', m = m' + 1 := ⟨m - 1, by omega⟩
    cases n with
    | zero => rw [List.range_succ_eq_map]; trivial
    | succ n =>
      rw [List.range_succ_eq_map, List.range_succ_eq_map]
      refine .inr ⟨he 0 (by omega) (by omega), ?_⟩
      rw [List.map_map, List.map_map]
      exact ih (f := f ∘ Nat.succ) (g := g ∘ Nat.succ) (by omega) (fun i h1 h2 => he (i + 1) (by omega) (by omega))
        (hj.imp (by omega) id)

/-! ### Numbers and their bits -/

/-- The number with the bits `h 0`, …, `h (k - 1)`, the first being the most significant. -/
def val (k : Nat) (h : Nat → Bool) : Nat := natOfBits ((List.range k).map h)

theorem val_succ (k h) : val (k + 1) h = 2 * val k h + (h k).toNat := by
  unfold val natOfBits
  rw [List.range_succ, List.map_append, List.foldl_append]
  rfl

theorem val_mono {h h' : Nat → Bool} : ∀ k, (∀ i, i < k → (h i).toNat ≤ (h' i).toNat) → val k h ≤ val k h'
  | 0, _ => Nat.le_refl _
  | k + 1, hi => by
    rw [val_succ, val_succ]
    have := val_mono k fun i h => hi i (by omega)
    have := hi k (by omega)
    omega

theorem val_lt {h h' : Nat → Bool} {t : Nat} (h0 : h t = false) (h1 : h' t = true) (he : ∀ i, i < t → h i = h' i) : ∀ k, t < k → val k h < val k h'
  | 0, hk => by omega
  | k + 1, hk => by
    rw [val_succ, val_succ]
    by_cases ht : t = k
    · subst ht
      have := val_mono t fun i hi => Nat.le_of_eq (congrArg Bool.toNat (he i hi))
      rw [h0, h1]; simp only [Bool.toNat_false, Bool.toNat_true]; omega
    · have := val_lt h0 h1 he k (by omega)
      have : (h k).toNat ≤ 1 := Bool.toNat_le _
      omega

theorem val_bound (h : Nat → Bool) : ∀ k, val k h < 2 ^ k
  | 0 => by simp [val, natOfBits]
  | k + 1 => by
    rw [val_succ, Nat.pow_succ]
    have := val_bound h k
    have : (h k).toNat ≤ 1 := Bool.toNat_le _
    omega

theorem least {p : Nat → Prop} (h : ∃ t, p t) : ∃ t, p t ∧ ∀ i, i < t → ¬ p i := by
  obtain ⟨t, ht⟩ := h
  induction t using Nat.strongRecOn with
  | _ t ih =>
    by_cases hs : ∃ i, i < t ∧ p i
    · obtain ⟨i, hi, hp⟩ := hs
      exact ih i hi hp
    · exact ⟨t, ht, fun i hi hp => hs ⟨i, hi, hp⟩⟩

/-- The smaller number has a zero at the first differing bit. -/
theorem lt_val {h h' : Nat → Bool} {k : Nat} (hl : val k h < val k h') : ∃ t, t < k ∧ h t = false ∧ h' t = true ∧ ∀ i, i < t → h i = h' i := by
  by_cases he : ∃ t, t < k ∧ h t ≠ h' t
  · obtain ⟨t, ht, hmin⟩ := least he
    have hm : ∀ i, i < t → h i = h' i := fun i hi => by
      by_contra hc
      exact hmin i hi ⟨by have : t < k := ht.1; omega, hc⟩
    refine ⟨t, ht.1, ?_⟩
    have hne : h t ≠ h' t := ht.2
    cases h0 : h t <;> cases h1 : h' t
    · rw [h0, h1] at hne; exact absurd rfl hne
    · exact ⟨rfl, rfl, hm⟩
    · have := val_lt h1 h0 (fun i hi => (hm i hi).symm) k ht.1
      omega
    · rw [h0, h1] at hne; exact absurd rfl hne
  · have := val_mono (h := h') (h' := h) k fun i hi => by
      by_contra hc
      exact he ⟨i, hi, fun e => hc (by rw [e]; exact Nat.le_refl _)⟩
    omega

theorem byte_val (b : Byte) : val 8 (fun i => (byteBits b).getD i false) = b.toNat := by
  revert b; decide +kernel

/-! ### Bit strings of byte strings -/

theorem group_val (k bits j) : group k bits j = val k fun i => bits.getD (k * j + i) false := rfl

theorem bitString_cons (x xs) : bitString (x :: xs) = byteBits x ++ bitString xs := by simp [bitString]

theorem getD_append_left' {a b : List Bool} {i : Nat} (h : i < a.length) : (a ++ b).getD i false = a.getD i false := by
  simp [List.getD_eq_getElem?_getD, List.getElem?_append_left h]
theorem getD_append_right' {a b : List Bool} {i : Nat} : (a ++ b).getD (a.length + i) false = b.getD i false := by
  rw [List.getD_eq_getElem?_getD, List.getElem?_append_right (by omega), Nat.add_sub_cancel_left, List.getD_eq_getElem?_getD]

/-- Base encodings whose characters grow with their values preserve the order, if a group is at most one byte. -/
theorem baseText_before {k : Nat} (hk : 0 < k) (hk8 : k ≤ 8) {ch : Nat → Byte} (hc : ∀ u v, u < v → v < 2 ^ k → (ch u).toNat < (ch v).toNat)
    {a b : List Byte} (h : Before a b) : Before (baseText k ch a) (baseText k ch b) := by
  unfold baseText
  rcases before_cases h with ⟨z, zs, rfl⟩ | ⟨c, x, xs, y, ys, rfl, rfl, hxy⟩
  · have hn : (8 * a.length + k - 1) / k < (8 * (a ++ z :: zs).length + k - 1) / k := by
      rw [List.length_append, List.length_cons, Nat.lt_iff_add_one_le, Nat.le_div_iff_mul_le hk, Nat.add_mul]
      have := Nat.div_mul_le_self (8 * a.length + k - 1) k
      omega
    by_cases he : ∃ j, j < (8 * a.length + k - 1) / k ∧ group k (bitString a) j ≠ group k (bitString (a ++ z :: zs)) j
    · obtain ⟨j, ht, hmin⟩ := least he
      refine before_range (j := j) (by omega) (fun i hi hi' => ?_) (.inr ?_)
      · by_contra hcn
        exact hmin i hi ⟨hi', fun e => hcn (by rw [e])⟩
      · refine hc _ _ (Nat.lt_of_le_of_ne ?_ ht.2) (val_bound _ _)
        rw [group_val, group_val, bitString_append]
        apply val_mono
        intro i _
        by_cases hi : k * j + i < (bitString a).length
        · rw [getD_append_left' hi]; exact Nat.le_refl _
        · rw [List.getD_eq_getElem?_getD, List.getElem?_eq_none (by omega)]; simp
    · refine before_range hn (fun i hi hi' => ?_) (.inl (Nat.le_refl _))
      by_contra hcn
      exact he ⟨i, hi, fun e => hcn (by rw [e])⟩
  · rw [← byte_val x, ← byte_val y] at hxy
    obtain ⟨t, ht, h0, h1, he⟩ := lt_val hxy
    have hl := bitString_length c
    have hbx : ∀ (w : Byte) ws i, i < 8 → (bitString (c ++ w :: ws)).getD (8 * c.length + i) false = (byteBits w).getD i false := by
      intro w ws i hi
      rw [bitString_append, bitString_cons, ← hl, getD_append_right', getD_append_left' (by simp [byteBits]; omega)]
    have hbc : ∀ (w : Byte) ws i, i < 8 * c.length → (bitString (c ++ w :: ws)).getD i false = (bitString c).getD i false := by
      intro w ws i hi
      rw [bitString_append, getD_append_left' (by omega)]
    have heq : ∀ i, i < 8 * c.length + t → (bitString (c ++ x :: xs)).getD i false = (bitString (c ++ y :: ys)).getD i false := by
      intro i hi
      by_cases hic : i < 8 * c.length
      · rw [hbc _ _ _ hic, hbc _ _ _ hic]
      · obtain ⟨s, rfl⟩ : ∃ s, i = 8 * c.length + s := ⟨i - 8 * c.length, by omega⟩
        rw [hbx _ _ _ (by omega), hbx _ _ _ (by omega)]
        exact he s (by omega)
    have hd := Nat.div_add_mod (8 * c.length + t) k
    have hm := Nat.mod_lt (8 * c.length + t) hk
    refine before_range (j := (8 * c.length + t) / k) ?_ (fun i hi _ => ?_) (.inr (hc _ _ ?_ (val_bound _ _)))
    · rw [Nat.lt_iff_add_one_le, Nat.le_div_iff_mul_le hk, Nat.add_mul, List.length_append, List.length_cons]
      rw [Nat.mul_comm] at hd
      omega
    · congr 1
      rw [group_val, group_val]
      have hik : k * (i + 1) ≤ k * ((8 * c.length + t) / k) := Nat.mul_le_mul_left _ hi
      rw [Nat.mul_succ] at hik
      unfold val
      congr 1
      apply List.map_congr_left
      intro r hr
      have := List.mem_range.1 hr
      exact heq _ (by omega)
    · rw [group_val, group_val]
      refine val_lt (t := (8 * c.length + t) % k) ?_ ?_ (fun i hi => heq _ (by omega)) k hm
      · rw [hd, hbx _ _ _ ht, h0]
      · rw [hd, hbx _ _ _ ht, h1]

end Simd
