import Verif.Model.AlswScalar
import Verif.Props.Alsw
/-
C70: the scalar reference functions of the classifier say the same as the vector code.
-/
namespace Simd.Vs

/-- C70: the tables of the five character sets can be evaluated at compile time, without underflow. -/
theorem C70_tables (k : Code) : k.alsw.CHECK_HASH_eval = some k.alsw.CHECK_HASH ∧ k.alsw.DECODE_HASH_eval = some k.alsw.DECODE_HASH := by
  rcases k with (_ | _) | (_ | _) | _ <;> decide +kernel

/-- C70: the assertions of the tests `test_check` and `test_decode` hold for the five character sets. -/
theorem C70_tests (k : Code) : k.alsw.test_check = true ∧ k.alsw.test_decode = true := by
  rcases k with (_ | _) | (_ | _) | _ <;> decide +kernel

theorem test_byte {p : Byte → Bool} (h : ((List.range 256).all fun i => p (BitVec.ofNat 8 i)) = true) (c : Byte) : p c = true := by
  have := List.all_eq_true.1 h c.toNat (List.mem_range.2 c.isLt)
  simpa using this

/-- C70: `alsw::check` accepts exactly the digits of the character set. -/
theorem C70_check (k : Code) (c : Byte) : (alsw_check k.alsw.CHECK_HASH k.alsw.CHECK_OFFSET c).toNat < 0x80 ↔ ∃ v, k.Digit c v := by
  have h := test_byte (p := fun c => decide ((alsw_check k.alsw.CHECK_HASH k.alsw.CHECK_OFFSET c).toNat < 0x80) == (k.alsw.decode c != 0xff)) (C70_tests k).1 c
  rw [beq_iff_eq] at h
  rw [← decide_eq_true_iff (p := _ < 0x80), h, bne_iff_ne, ne_eq]
  exact (not_congr (k.invalid_iff c)).trans not_not

/-- C70: `alsw::decode` gives the value of every digit. -/
theorem C70_decode (k : Code) (c : Byte) (v : Nat) (h : k.Digit c v) : (alsw_decode k.alsw.DECODE_HASH k.alsw.DECODE_OFFSET c).toNat = v := by
  obtain ⟨h1, h2⟩ := (k.decode_iff c v).1 h
  have := test_byte (p := fun c => k.alsw.decode c == 0xff || alsw_decode k.alsw.DECODE_HASH k.alsw.DECODE_OFFSET c == k.alsw.decode c) (C70_tests k).2 c
  rw [Bool.or_eq_true, beq_iff_eq, beq_iff_eq] at this
  rw [this.resolve_left h1, h2]

/-- C70: in each lane of a vector, whatever is in the other lanes, the vector code accepts what `alsw::check` accepts and decodes it to what
`alsw::decode` decodes it to. -/
theorem C70_vector (k : Code) (s : Isa) (hs : s ≠ .sse2) (x : V256) :
    ∃ c1 c2, decode_ascii_xn s x k.alsw.check_lut.x2 k.alsw.decode_lut.x2 = some (c1, c2) ∧
      ∀ i, i < 32 → ((c1.lane i).msb = (alsw_check k.alsw.CHECK_HASH k.alsw.CHECK_OFFSET (x.lane i)).msb) ∧
        ((c1.lane i).msb = false → c2.lane i = alsw_decode k.alsw.DECODE_HASH k.alsw.DECODE_OFFSET (x.lane i)) := by
  obtain ⟨-, c1, c2, h, hl⟩ := C49_decode k s hs (.ofList []) x
  refine ⟨c1, c2, h, fun i hi => ?_⟩
  obtain ⟨h1, h2⟩ := hl i hi
  constructor
  · have h3 := (C70_check k (x.lane i)).trans h1.symm
    have h4 := BitVec.msb_eq_decide (alsw_check k.alsw.CHECK_HASH k.alsw.CHECK_OFFSET (x.lane i))
    rw [h4]
    cases hm : (c1.lane i).msb
    · have := h3.2 hm
      simpa using this
    · have := mt h3.1 (by simp [hm])
      simpa using this
  · intro hm
    obtain ⟨v, hv⟩ := h1.1 hm
    exact BitVec.eq_of_toNat_eq ((h2 v hv).trans (C70_decode k _ v hv).symm)

/-- '+' is a digit of the standard alphabet and not of the other one; the value of the byte before it does not matter. -/
example : (Code.base64 false).Digit 0x2b 62 ∧ (alsw_check UrlSafeAlsw.CHECK_HASH UrlSafeAlsw.CHECK_OFFSET 0x2b).toNat ≥ 0x80 ∧
    alsw_decode StandardAlsw.DECODE_HASH StandardAlsw.DECODE_OFFSET 0x2b = 62 :=
  ⟨⟨by decide, by decide⟩, by decide +kernel, by decide +kernel⟩

/-- A spec whose table cannot be evaluated. -/
example : AlswSpec.CHECK_HASH_eval { HexAlsw with check_hash := fun i => BitVec.ofNat 8 i } = none := by decide +kernel

end Simd.Vs
