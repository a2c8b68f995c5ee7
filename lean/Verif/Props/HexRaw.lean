import Verif.Props.Hex
import Verif.Lemmas.Raw
/-
C58: the raw-pointer functions of hex-simd under exactly the conditions of their safety sections: any memory, any position
inside allocations, source and destination possibly in one allocation.
-/
namespace Simd
namespace Hex

/-- C58, `check_raw`: reads only the `len` bytes, changes nothing. -/
theorem C58_check_raw (i : Option Isa) (m : Mem) (p : Ptr) (xs : List Byte) (hr : Spec.Reads m p xs) :
    (check_raw i p xs.length).run m = if ∀ c ∈ xs, Spec.isHexDigit c then .ok () m else .err m := by
  have h := check_auto_spec i hr.has rfl
  split <;> rename_i hc
  · exact h.run_ok ((hexOk_spec xs).2 hc)
  · exact h.run_err (Bool.eq_false_iff.2 fun hk => hc ((hexOk_spec xs).1 hk))

/-- C58, `encode_raw`: if the regions do not overlap, the digits are written and nothing else changes. -/
theorem C58_encode_raw (P : Plat) (i : Option Isa) (case : AsciiCase) (m : Mem) (p q : Ptr) (xs : List Byte)
    (hr : Spec.Reads m p xs) (hw : Spec.Writable m q (2 * xs.length)) (hsz : 2 * xs.length ≤ P.usizeMax)
    (hd : Spec.NoOverlap p xs.length q (2 * xs.length)) :
    ∃ m', (encode_raw P i p xs.length q case).run m = .ok (2 * xs.length) m' ∧
      Spec.Wrote m m' q (Spec.hexEncode (case == .upper) xs) := by
  have ha : Apart p q xs.length (2 * xs.length) := by
    rcases hd.apart with h | h | h
    · unfold Apart; omega
    · unfold Apart; omega
    · exact h
  have h := (encode_auto_spec i case hr.has rfl hw ha).ret (f := fun _ => 2 * xs.length)
  have e : P.mulU xs.length 2 = some (2 * xs.length) := by rw [Plat.mulU, if_pos (by omega), Nat.mul_comm]
  unfold encode_raw
  rw [e, ← hexEnc_spec]
  exact h.raw_ok rfl

theorem decode_raw_does (i : Option Isa) (m : Mem) (p q : Ptr) (xs : List Byte)
    (hr : Spec.Reads m p xs) (hw : Spec.Writable m q (xs.length / 2))
    (hd : Spec.NoOverlap p xs.length q (xs.length / 2) ∨ p = q) (he : xs.length % 2 = 0) :
    Does (decode_raw i p xs.length q) (xs.length / 2) hexDec xs q (xs.length / 2) m := by
  have ha : DecSafe p q (xs.length / 2) := by
    unfold DecSafe
    rcases hd with h | h
    · rcases h.apart with h | h | h
      · omega
      · omega
      · unfold Apart at h; omega
    · subst h; omega
  have h := (decode_auto_spec i (k := xs.length / 2) hr.has (by omega) hw ha).ret (f := fun _ => xs.length / 2)
  rw [show 2 * (xs.length / 2) = xs.length by omega] at h
  unfold decode_raw
  exact Does.ensure (by simp; omega) h

/-- C58, `decode_raw` on hexadecimal text: regions that do not overlap, or the same start. -/
theorem C58_decode_raw_ok (i : Option Isa) (m : Mem) (p q : Ptr) (xs ys : List Byte)
    (hr : Spec.Reads m p xs) (hw : Spec.Writable m q (xs.length / 2))
    (hd : Spec.NoOverlap p xs.length q (xs.length / 2) ∨ p = q) (hy : Spec.IsHexOf xs ys) :
    ∃ m', (decode_raw i p xs.length q).run m = .ok ys.length m' ∧ Spec.Wrote m m' q ys := by
  have hl := isHexOf_length hy
  have := (decode_raw_does i m p q xs hr hw hd (by omega)).raw_ok ((hexDec_spec xs ys (by omega)).2 hy)
  rwa [show xs.length / 2 = ys.length by omega] at this

/-- C58, `decode_raw` on anything else: an error, and at most the `len / 2` destination bytes have changed. -/
theorem C58_decode_raw_err (i : Option Isa) (m : Mem) (p q : Ptr) (xs : List Byte)
    (hr : Spec.Reads m p xs) (hw : Spec.Writable m q (xs.length / 2))
    (hd : Spec.NoOverlap p xs.length q (xs.length / 2) ∨ p = q) (hy : ¬ ∃ ys, Spec.IsHexOf xs ys) :
    ∃ m', (decode_raw i p xs.length q).run m = .err m' ∧ Spec.OnlyChanged m m' q (xs.length / 2) := by
  by_cases he : xs.length % 2 = 0
  · refine (decode_raw_does i m p q xs hr hw hd he).raw_err ?_
    cases hx : hexDec xs with
    | none => rfl
    | some ys => exact absurd ⟨ys, (hexDec_spec xs ys he).1 hx⟩ hy
  · refine ⟨m, ?_, SameOutside.refl.only⟩
    unfold decode_raw
    exact run_ensure_false (by simp; omega)

/-- One allocation of 12 bytes holding the text `4e4F` at offset 5. -/
def exMem : Mem := Mem.ofBufs [List.replicate 5 none ++ [0x34#8, 0x65#8, 0x34#8, 0x46#8].map some ++ List.replicate 3 none]

example : Spec.Reads exMem ⟨0, 5⟩ [0x34#8, 0x65#8, 0x34#8, 0x46#8] ∧ Spec.Writable exMem ⟨0, 9⟩ 2 ∧
    Spec.NoOverlap ⟨0, 5⟩ 4 ⟨0, 9⟩ 2 ∧ Spec.NoOverlap ⟨0, 5⟩ 4 ⟨0, 0⟩ 2 ∧
    Spec.IsHexOf [0x34#8, 0x65#8, 0x34#8, 0x46#8] [0x4e#8, 0x4f#8] ∧
    ¬ Spec.NoOverlap ⟨0, 5⟩ 4 ⟨0, 6⟩ 2 := by
  refine ⟨⟨by decide, ?_⟩, by unfold Spec.Writable; decide, fun i j hi hj => by dsimp only; omega, fun i j hi hj => by dsimp only; omega, by unfold Spec.IsHexOf; decide, ?_⟩
  · intro i h
    have : i = 0 ∨ i = 1 ∨ i = 2 ∨ i = 3 := by simp at h; omega
    rcases this with rfl | rfl | rfl | rfl <;> rfl
  · intro h; exact h 1 0 (by omega) (by omega) ⟨rfl, rfl⟩

end Hex
end Simd
