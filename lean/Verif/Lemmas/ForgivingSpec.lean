import Verif.Spec.Forgiving
import Verif.Lemmas.Base64Api
/-
The decoder for `STANDARD_FORGIVING` computes steps 2 to 10 of forgiving-base64 decode.
-/
namespace Simd
namespace Base64
open Spec

theorem base64Value_eq (c : Byte) : base64Value c = if val .standard c = 255#8 then none else some (val .standard c).toNat := by
  revert c; decide +kernel

theorem bytesOfBits_append {a b : List Bool} {n : Nat} (h : a.length = 8 * n) : bytesOfBits (a ++ b) = bytesOfBits a ++ bytesOfBits b := by
  unfold bytesOfBits
  have h1 : a.length / 8 = n := by omega
  have h2 : (a ++ b).length / 8 = n + b.length / 8 := by rw [List.length_append]; omega
  rw [h2, h1, List.range_add, List.map_append, List.map_map]
  congr 1
  · apply List.map_congr_left
    intro j hj
    rw [group_append_left h (List.mem_range.1 hj)]
  · apply List.map_congr_left
    intro j _
    simp only [Function.comp]
    rw [group_append_right h]

theorem sixBits_eq (v : Nat) : sixBits v = [v.testBit 5, v.testBit 4, v.testBit 3, v.testBit 2, v.testBit 1, v.testBit 0] := rfl

theorem six_sum : ∀ v : Fin 64, v.val = 32 * (v.val.testBit 5).toNat + 16 * (v.val.testBit 4).toNat + 8 * (v.val.testBit 3).toNat
    + 4 * (v.val.testBit 2).toNat + 2 * (v.val.testBit 1).toNat + (v.val.testBit 0).toNat := by decide +kernel

theorem six_sum' {v : Nat} (h : v < 64) : v = 32 * (v.testBit 5).toNat + 16 * (v.testBit 4).toNat + 8 * (v.testBit 3).toNat
    + 4 * (v.testBit 2).toNat + 2 * (v.testBit 1).toNat + (v.testBit 0).toNat := six_sum ⟨v, h⟩

theorem bytes4 {a b c d : Nat} (ha : a < 64) (hb : b < 64) (hc : c < 64) (hd : d < 64) :
    bytesOfBits ([a, b, c, d].flatMap sixBits) =
      [BitVec.ofNat 8 (a * 4 + b / 16), BitVec.ofNat 8 (b % 16 * 16 + c / 4), BitVec.ofNat 8 (c % 4 * 64 + d)] := by
  have ea := six_sum' ha
  have qa (i) := (a.testBit i).toNat_lt
  have a0 := qa 0; have a1 := qa 1; have a2 := qa 2; have a3 := qa 3; have a4 := qa 4; have a5 := qa 5
  have eb := six_sum' hb
  have qb (i) := (b.testBit i).toNat_lt
  have b0 := qb 0; have b1 := qb 1; have b2 := qb 2; have b3 := qb 3; have b4 := qb 4; have b5 := qb 5
  have ec := six_sum' hc
  have qc (i) := (c.testBit i).toNat_lt
  have c0 := qc 0; have c1 := qc 1; have c2 := qc 2; have c3 := qc 3; have c4 := qc 4; have c5 := qc 5
  have ed := six_sum' hd
  have qd (i) := (d.testBit i).toNat_lt
  have d0 := qd 0; have d1 := qd 1; have d2 := qd 2; have d3 := qd 3; have d4 := qd 4; have d5 := qd 5
  simp only [List.flatMap_cons, List.flatMap_nil, sixBits_eq, List.cons_append, List.nil_append, bytesOfBits, List.length_cons, List.length_nil,
    Nat.reduceAdd, Nat.reduceDiv, List.range_succ, List.range_zero, List.map_cons, List.map_nil, group, natOfBits, List.foldl_cons, List.foldl_nil,
    Nat.reduceMul, List.getD_cons_zero, List.getD_cons_succ]
  congr 1
  · congr 1; omega
  · congr 1
    · congr 1; omega
    · congr 1; congr 1; omega

theorem bytes3 {a b c : Nat} (ha : a < 64) (hb : b < 64) (hc : c < 64) :
    bytesOfBits ([a, b, c].flatMap sixBits) = [BitVec.ofNat 8 (a * 4 + b / 16), BitVec.ofNat 8 (b % 16 * 16 + c / 4)] := by
  have ea := six_sum' ha
  have qa (i) := (a.testBit i).toNat_lt
  have a0 := qa 0; have a1 := qa 1; have a2 := qa 2; have a3 := qa 3; have a4 := qa 4; have a5 := qa 5
  have eb := six_sum' hb
  have qb (i) := (b.testBit i).toNat_lt
  have b0 := qb 0; have b1 := qb 1; have b2 := qb 2; have b3 := qb 3; have b4 := qb 4; have b5 := qb 5
  have ec := six_sum' hc
  have qc (i) := (c.testBit i).toNat_lt
  have c0 := qc 0; have c1 := qc 1; have c2 := qc 2; have c3 := qc 3; have c4 := qc 4; have c5 := qc 5
  simp only [List.flatMap_cons, List.flatMap_nil, sixBits_eq, List.cons_append, List.nil_append, bytesOfBits, List.length_cons, List.length_nil,
    Nat.reduceAdd, Nat.reduceDiv, List.range_succ, List.range_zero, List.map_cons, List.map_nil, group, natOfBits, List.foldl_cons, List.foldl_nil,
    Nat.reduceMul, List.getD_cons_zero, List.getD_cons_succ]
  congr 1
  · congr 1; omega
  · congr 1; congr 1; omega

theorem bytes2 {a b : Nat} (ha : a < 64) (hb : b < 64) : bytesOfBits ([a, b].flatMap sixBits) = [BitVec.ofNat 8 (a * 4 + b / 16)] := by
  have ea := six_sum' ha
  have qa (i) := (a.testBit i).toNat_lt
  have a0 := qa 0; have a1 := qa 1; have a2 := qa 2; have a3 := qa 3; have a4 := qa 4; have a5 := qa 5
  have eb := six_sum' hb
  have qb (i) := (b.testBit i).toNat_lt
  have b0 := qb 0; have b1 := qb 1; have b2 := qb 2; have b3 := qb 3; have b4 := qb 4; have b5 := qb 5
  simp only [List.flatMap_cons, List.flatMap_nil, sixBits_eq, List.cons_append, List.nil_append, bytesOfBits, List.length_cons, List.length_nil,
    Nat.reduceAdd, Nat.reduceDiv, List.range_succ, List.range_zero, List.map_cons, List.map_nil, group, natOfBits, List.foldl_cons, List.foldl_nil,
    Nat.reduceMul, List.getD_cons_zero, List.getD_cons_succ]
  congr 1; congr 1; omega

theorem mapM_append' {f : Byte → Option Nat} (xs ys : List Byte) :
    (xs ++ ys).mapM f = (xs.mapM f).bind fun u => (ys.mapM f).map (u ++ ·) := by
  rw [List.mapM_append]
  cases xs.mapM f <;> cases ys.mapM f <;> rfl

theorem decodeBits_four (a b c d : Byte) (r : List Byte) :
    decodeBits (a :: b :: c :: d :: r) = (decB (val .standard) 4 decG [a, b, c, d]).bind fun u => (decodeBits r).map (u ++ ·) := by
  have inv := inverse .standard
  unfold decodeBits
  have hl : (a :: b :: c :: d :: r).length % 4 = r.length % 4 := by simp only [List.length_cons]; omega
  by_cases h1 : r.length % 4 = 1
  · rw [if_pos (hl.trans h1), if_pos h1]
    cases decB (val .standard) 4 decG [a, b, c, d] <;> rfl
  rw [if_neg (by omega), if_neg h1]
  rw [show a :: b :: c :: d :: r = [a, b, c, d] ++ r from rfl, mapM_append']
  by_cases h : val .standard a ≠ 255#8 ∧ val .standard b ≠ 255#8 ∧ val .standard c ≠ 255#8 ∧ val .standard d ≠ 255#8
  · rw [decB4_some.2 ⟨h, rfl⟩]
    obtain ⟨ha, hb, hc, hd⟩ := h
    have : [a, b, c, d].mapM base64Value = some [(val .standard a).toNat, (val .standard b).toNat, (val .standard c).toNat, (val .standard d).toNat] := by
      simp [List.mapM_cons, base64Value_eq, ha, hb, hc, hd]
    rw [this]
    cases hr : r.mapM base64Value with
    | none => rfl
    | some vs =>
      simp only [Option.bind_some, Option.map_some]
      rw [List.flatMap_append, bytesOfBits_append (n := 3) (by simp [sixBits_eq]), bytes4 (inv.lt a ha) (inv.lt b hb) (inv.lt c hc) (inv.lt d hd)]
      rfl
  · have h1 : decB (val .standard) 4 decG [a, b, c, d] = none := by
      cases hd : decB (val .standard) 4 decG [a, b, c, d] with
      | none => rfl
      | some ys => exact absurd (decB4_some.1 hd).1 h
    have h2 : [a, b, c, d].mapM base64Value = none := by
      simp only [List.mapM_cons, List.mapM_nil, base64Value_eq]
      by_cases ha : val .standard a = 255#8
      · simp [ha]
      by_cases hb : val .standard b = 255#8
      · simp [ha, hb]
      by_cases hc : val .standard c = 255#8
      · simp [ha, hb, hc]
      by_cases hd : val .standard d = 255#8
      · simp [ha, hb, hc, hd]
      exact absurd ⟨ha, hb, hc, hd⟩ h
    rw [h1, h2]; rfl

theorem decodeBits_eq : ∀ xs : List Byte, dec64 (val .standard) true xs = decodeBits xs
  | a :: b :: c :: d :: r => by rw [dec64, decodeBits_four, decodeBits_eq r]
  | [a, b, c] => by
    have inv := inverse .standard
    simp only [dec64, decT3, decodeBits, List.length_cons, List.length_nil, List.mapM_cons, List.mapM_nil, base64Value_eq]
    by_cases ha : val .standard a = 255#8
    · simp [ha]
    by_cases hb : val .standard b = 255#8
    · simp [ha, hb]
    by_cases hc : val .standard c = 255#8
    · simp [ha, hb, hc]
    simp only [ha, hb, hc, ne_eq, not_false_eq_true, true_or, and_self, if_true, if_false]
    rw [if_neg (by omega)]
    show _ = (some [(val .standard a).toNat, (val .standard b).toNat, (val .standard c).toNat]).map _
    rw [Option.map_some, bytes3 (inv.lt a ha) (inv.lt b hb) (inv.lt c hc)]
  | [a, b] => by
    have inv := inverse .standard
    simp only [dec64, decT2, decodeBits, List.length_cons, List.length_nil, List.mapM_cons, List.mapM_nil, base64Value_eq]
    by_cases ha : val .standard a = 255#8
    · simp [ha]
    by_cases hb : val .standard b = 255#8
    · simp [ha, hb]
    simp only [ha, hb, ne_eq, not_false_eq_true, true_or, and_self, if_true, if_false]
    rw [if_neg (by omega)]
    show _ = (some [(val .standard a).toNat, (val .standard b).toNat]).map _
    rw [Option.map_some, bytes2 (inv.lt a ha) (inv.lt b hb)]
  | [_] => by simp [dec64, decodeBits]
  | [] => by simp [decodeBits, bytesOfBits]

theorem padCount_suffix {xs : List Byte} (h : 2 ≤ xs.length) :
    padCount xs = if [0x3d#8, 0x3d#8] <:+ xs then 2 else if [0x3d#8] <:+ xs then 1 else 0 := by
  obtain ⟨ys, a, b, rfl⟩ : ∃ ys a b, xs = ys ++ [a, b] := by
    refine ⟨xs.take (xs.length - 2), xs[xs.length - 2], xs[xs.length - 1], ?_⟩
    apply List.ext_getElem (by simp; omega)
    intro i h1 h2
    by_cases hi : i < xs.length - 2
    · rw [List.getElem_append_left (by simp; omega), List.getElem_take]
    · rw [List.getElem_append_right (by simp; omega)]
      simp only [List.length_take, Nat.min_eq_left (Nat.sub_le xs.length 2)]
      rcases (show i = xs.length - 2 ∨ i = xs.length - 1 by omega) with rfl | rfl
      · simp
      · simp [show xs.length - 1 - (xs.length - 2) = 1 by omega]
  have e2 : ([0x3d#8, 0x3d#8] <:+ ys ++ [a, b]) ↔ a = 0x3d#8 ∧ b = 0x3d#8 := by
    constructor
    · rintro ⟨zs, hz⟩
      have := (List.append_inj_right' hz rfl)
      simp at this; exact ⟨this.1.symm, this.2.symm⟩
    · rintro ⟨rfl, rfl⟩; exact List.suffix_append ..
  have e1 : ([0x3d#8] <:+ ys ++ [a, b]) ↔ b = 0x3d#8 := by
    rw [show ys ++ [a, b] = (ys ++ [a]) ++ [b] by simp]
    constructor
    · rintro ⟨zs, hz⟩
      have := (List.append_inj_right' hz rfl)
      simp at this; exact this.symm
    · rintro rfl; exact List.suffix_append ..
  simp only [e1, e2]
  unfold padCount
  rw [getD_app_right (by simp), getD_app_right (by simp)]
  simp only [List.length_append, List.length_cons, List.length_nil, show ys.length + (0 + 1 + 1) - 1 - ys.length = 1 by omega,
    show ys.length + (0 + 1 + 1) - 2 - ys.length = 0 by omega, List.getD_cons_zero, List.getD_cons_succ]
  by_cases hb : b = 0x3d#8 <;> by_cases ha : a = 0x3d#8 <;> simp [ha, hb]

/-- Steps 2 to 10 of forgiving-base64 decode. -/
theorem full_forgiving (xs : List Byte) : full STANDARD_FORGIVING xs = decodeBits (stripPad xs) := by
  show (dlen .forgiving xs).bind (fun r => dec64 (val .standard) true (xs.take r.1)) = _
  by_cases h0 : xs = []
  · subst h0; rfl
  have hpos : 0 < xs.length := List.length_pos_iff.2 h0
  have key : stripPad xs = xs.take ((dataLen .forgiving xs).getD 0) := by
    unfold stripPad
    simp only [dataLen]
    split
    · rw [padCount_suffix (by omega)]
      split
      · rfl
      split <;> simp
    · simp
  have hn : ∃ n, dataLen .forgiving xs = some n ∧ n ≤ xs.length := by
    simp only [dataLen]
    split <;> exact ⟨_, rfl, by omega⟩
  obtain ⟨n, hn, hle⟩ := hn
  rw [key, hn, ← decodeBits_eq]
  unfold dlen
  rw [if_neg h0, hn]
  simp only [Option.bind_some, Option.getD_some]
  split
  · rw [decodeBits_eq]
    unfold decodeBits
    rw [List.length_take, Nat.min_eq_left hle, if_pos (by assumption)]; rfl
  · rfl

end Base64
end Simd
