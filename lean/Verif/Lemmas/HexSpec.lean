import Verif.Lemmas.HexEncode
import Verif.Lemmas.HexCheck
import Verif.Spec.Hex
/-
The block functions `hexEnc`, `hexDec`, `hexOk` agree with the specification.
-/
namespace Simd
namespace Hex
open Vs

theorem encG_spec (case : AsciiCase) (x : Byte) : encG case (fun _ => x) =
    [Spec.hexDigit (case == .upper) (x.toNat / 16), Spec.hexDigit (case == .upper) (x.toNat % 16)] := by
  cases case <;> revert x <;> decide +kernel

theorem hexEnc_one (case : AsciiCase) (x : Byte) : hexEnc case [x] = Spec.hexEncode (case == .upper) [x] := by
  rw [hexEnc, blocks_one (a := 1) (by omega) rfl]
  have : encG case (fun r => [x].getD r 0) = encG case fun _ => x :=
    encG_loc case _ _ fun r hr => by obtain rfl : r = 0 := by omega
                                     rfl
  rw [this, encG_spec]; rfl

theorem hexEnc_spec (case : AsciiCase) (xs : List Byte) : hexEnc case xs = Spec.hexEncode (case == .upper) xs := by
  induction xs with
  | nil => simp [Spec.hexEncode]
  | cons x xs ih =>
    have := hexEnc_append case [x] xs
    rw [List.singleton_append] at this
    rw [this, ih, hexEnc_one]
    simp [Spec.hexEncode]

theorem hexEncode_length (u xs) : (Spec.hexEncode u xs).length = 2 * xs.length := by
  induction xs with
  | nil => rfl
  | cons x xs ih => simp only [Spec.hexEncode, List.flatMap_cons, List.length_append] at ih ⊢; simp at ih ⊢; omega

theorem lower_iff (a : Byte) (n : Fin 16) : Spec.toLower a = Spec.hexDigit false n.val ↔ parse_hex a = BitVec.ofNat 8 n.val := by
  revert a n; decide +kernel

theorem pair_toNat : ∀ u v : Fin 16, (shl4 (BitVec.ofNat 8 u.val) ||| BitVec.ofNat 8 v.val).toNat = 16 * u.val + v.val := by
  decide +kernel

theorem hexDec_pair (a b : Byte) : hexDec [a, b] =
    if parse_hex a ≠ 255#8 ∧ parse_hex b ≠ 255#8 then some [shl4 (parse_hex a) ||| parse_hex b] else none := by
  rw [hexDec, decB]
  have : blocks 2 decG ([a, b].map parse_hex) = [shl4 (parse_hex a) ||| parse_hex b] := by
    rw [List.map_cons, List.map_cons, List.map_nil, blocks_one (a := 2) (by omega) rfl]; rfl
  rw [this]
  by_cases h1 : parse_hex a = 255#8 <;> by_cases h2 : parse_hex b = 255#8 <;> simp [h1, h2]

theorem hexDec_pair_iff (a b y : Byte) : hexDec [a, b] = some [y] ↔
    Spec.toLower a = Spec.hexDigit false (y.toNat / 16) ∧ Spec.toLower b = Spec.hexDigit false (y.toNat % 16) := by
  have hy := y.isLt
  have e1 := lower_iff a ⟨y.toNat / 16, by omega⟩
  have e2 := lower_iff b ⟨y.toNat % 16, by omega⟩
  simp only at e1 e2
  rw [hexDec_pair, e1, e2]
  constructor
  · intro h
    split at h
    · rename_i hv
      have ha := (parse_hex_cases a).resolve_left hv.1
      have hb := (parse_hex_cases b).resolve_left hv.2
      have hp := pair_toNat ⟨_, ha⟩ ⟨_, hb⟩
      simp only [BitVec.ofNat_toNat, BitVec.setWidth_eq] at hp
      simp only [Option.some.injEq, List.cons.injEq, and_true] at h
      rw [h] at hp
      constructor <;> apply BitVec.eq_of_toNat_eq <;> simp <;> omega
    · cases h
  · rintro ⟨ha, hb⟩
    have hp := pair_toNat ⟨y.toNat / 16, by omega⟩ ⟨y.toNat % 16, by omega⟩
    simp only at hp
    rw [ha, hb, if_pos]
    · congr 2; apply BitVec.eq_of_toNat_eq; rw [hp]; omega
    · constructor <;> intro hc <;> have := congrArg BitVec.toNat hc <;> simp at this <;> omega

theorem hexDec_spec : ∀ (xs ys : List Byte), xs.length % 2 = 0 → (hexDec xs = some ys ↔ Spec.IsHexOf xs ys)
  | [], ys, _ => by
    cases ys with
    | nil => simp [Spec.IsHexOf, Spec.hexEncode]
    | cons y ys => simp [Spec.IsHexOf, Spec.hexEncode]
  | [_], _, h => by simp at h
  | a :: b :: xs, ys, h => by
    have ih := hexDec_spec xs
    have ha := hexDec_append (xs := [a, b]) (ys := xs) (by simp)
    rw [show [a, b] ++ xs = a :: b :: xs from rfl] at ha
    rw [ha]
    cases ys with
    | nil =>
      simp only [Spec.IsHexOf, Spec.hexEncode, List.flatMap_nil, List.map_cons, reduceCtorEq, iff_false]
      rw [hexDec_pair]
      split
      · cases hexDec xs <;> simp
      · simp
    | cons y ys =>
      have h2 := hexDec_pair_iff a b y
      have ih' := ih ys (by simp at h; omega)
      simp only [Spec.IsHexOf, Spec.hexEncode, List.flatMap_cons, List.map_cons, List.cons_append, List.nil_append, List.cons.injEq] at ih' ⊢
      rw [← ih', ← and_assoc, ← h2]
      rw [hexDec_pair]
      split
      · cases hexDec xs <;> simp
      · simp

theorem hexOk_spec (xs : List Byte) : hexOk xs = true ↔ ∀ c ∈ xs, Spec.isHexDigit c := by
  have key : ∀ c : Byte, (parse_hex c != 255#8) = true ↔ Spec.isHexDigit c := by decide +kernel
  rw [hexOk, List.all_eq_true]
  simp only [key]

end Hex
end Simd
