import Verif.Lemmas.Alsw
import Verif.Spec.Hex
import Verif.Spec.Rfc4648
/-
The vector classifier: property C49.
-/
namespace Simd
namespace Vs

/-- The five character sets. -/
inductive Code where
  | base64 (url : Bool)
  | base32 (ext : Bool)
  | hex

/-- In the character set, `c` is the digit of value `v`. -/
def Code.Digit : Code → Byte → Nat → Prop
  | .base64 url, c, v => v < 64 ∧ c = Spec.base64Char url v
  | .base32 ext, c, v => v < 32 ∧ c = Spec.base32Char ext v
  | .hex, c, v => v < 16 ∧ Spec.toLower c = Spec.hexDigit false v

/-- The table type of each character set. -/
def Code.alsw : Code → AlswSpec
  | .base64 false => StandardAlsw
  | .base64 true => UrlSafeAlsw
  | .base32 false => Base32Alsw
  | .base32 true => Base32HexAlsw
  | .hex => HexAlsw

theorem Code.good (k : Code) : GoodSpec k.alsw := by
  rcases k with (_ | _) | (_ | _) | _
  exacts [StandardAlsw_good, UrlSafeAlsw_good, Base32Alsw_good, Base32HexAlsw_good, HexAlsw_good]

theorem byte_forall {p : Byte → Prop} (h : ∀ i : Fin 256, p (BitVec.ofFin i)) (c : Byte) : p c := h c.toFin

theorem Code.decode_iff (k : Code) (c : Byte) (v : Nat) : k.Digit c v ↔ k.alsw.decode c ≠ 255#8 ∧ (k.alsw.decode c).toNat = v := by
  have h : (∀ v < 64, k.Digit c v → k.alsw.decode c ≠ 255#8 ∧ (k.alsw.decode c).toNat = v) ∧
      (k.alsw.decode c ≠ 255#8 → k.Digit c (k.alsw.decode c).toNat) := by
    revert c
    rcases k with (_ | _) | (_ | _) | _ <;> refine byte_forall ?_ <;> unfold Code.Digit <;> simp only [Code.alsw] <;> decide +kernel
  constructor
  · intro hd
    refine h.1 v ?_ hd
    rcases k with _ | _ | _ <;> exact Nat.lt_of_lt_of_le hd.1 (by decide)
  · rintro ⟨h1, rfl⟩; exact h.2 h1

theorem Code.invalid_iff (k : Code) (c : Byte) : k.alsw.decode c = 255#8 ↔ ¬ ∃ v, k.Digit c v := by
  constructor
  · rintro h ⟨v, hv⟩; exact ((k.decode_iff c v).1 hv).1 h
  · intro h
    by_contra hc
    exact h ⟨_, (k.decode_iff c _).2 ⟨hc, rfl⟩⟩

section
variable {n : Nat} [Scalable n] [LawfulScalable n]

theorem check_digits (k : Code) {check : AlswLut n} (h1 : Holds check.hash k.alsw.CHECK_HASH) (h2 : Holds check.offset k.alsw.CHECK_OFFSET)
    {s : Isa} (hs : s ≠ .sse2) (x : Vec n) : ∃ r, check_ascii_xn s x check = some r ∧ (r = true ↔ ∀ i, i < n → ∃ v, k.Digit (x.lane i) v) := by
  refine ⟨_, check_ascii_xn_spec k.good h1 h2 s hs x, ?_⟩
  rw [allLane_iff]
  refine forall_congr' fun i => imp_congr_right fun _ => ?_
  rw [bne_iff_ne, ne_eq, k.invalid_iff, not_not]

theorem decode_digits (k : Code) {check decode : AlswLut n} (h1 : Holds check.hash k.alsw.CHECK_HASH) (h2 : Holds check.offset k.alsw.CHECK_OFFSET)
    (h3 : Holds decode.hash k.alsw.DECODE_HASH) (h4 : Holds decode.offset k.alsw.DECODE_OFFSET) {s : Isa} (hs : s ≠ .sse2) (x : Vec n) :
    ∃ c1 c2, decode_ascii_xn s x check decode = some (c1, c2) ∧
      ∀ i, i < n → ((c1.lane i).msb = false ↔ ∃ v, k.Digit (x.lane i) v) ∧ ∀ v, k.Digit (x.lane i) v → (c2.lane i).toNat = v := by
  obtain ⟨c1, c2, hr, h⟩ := decode_ascii_xn_spec k.good h1 h2 h3 h4 s hs x
  refine ⟨c1, c2, hr, fun i hi => ⟨?_, fun v hv => ?_⟩⟩
  · rw [(h i hi).1, beq_eq_false_iff_ne, ne_eq, k.invalid_iff, not_not]
  · obtain ⟨h5, h6⟩ := (k.decode_iff _ v).1 hv
    rw [(h i hi).2 h5, h6]

end

/-- C49, the check: with every instruction set that has a byte shuffle and with both vector widths, `check_ascii_xn` accepts a vector iff each byte, by itself, is a
digit of the character set. -/
theorem C49_check (k : Code) (s : Isa) (hs : s ≠ .sse2) (x : V128) (y : V256) :
    (∃ r, check_ascii_xn s x k.alsw.check_lut = some r ∧ (r = true ↔ ∀ i, i < 16 → ∃ v, k.Digit (x.lane i) v)) ∧
    (∃ r, check_ascii_xn s y k.alsw.check_lut.x2 = some r ∧ (r = true ↔ ∀ i, i < 32 → ∃ v, k.Digit (y.lane i) v)) :=
  ⟨check_digits k (holds16 _) (holds16 _) hs x, check_digits k (holds32 _) (holds32 _) hs y⟩

/-- C49, decoding: the high bit of each lane of the first result tells whether the byte in that lane is a digit, and then the lane of the second result is its value;
the other lanes, digits or not, have no influence. -/
theorem C49_decode (k : Code) (s : Isa) (hs : s ≠ .sse2) (x : V128) (y : V256) :
    (∃ c1 c2, decode_ascii_xn s x k.alsw.check_lut k.alsw.decode_lut = some (c1, c2) ∧
      ∀ i, i < 16 → ((c1.lane i).msb = false ↔ ∃ v, k.Digit (x.lane i) v) ∧ ∀ v, k.Digit (x.lane i) v → (c2.lane i).toNat = v) ∧
    (∃ c1 c2, decode_ascii_xn s y k.alsw.check_lut.x2 k.alsw.decode_lut.x2 = some (c1, c2) ∧
      ∀ i, i < 32 → ((c1.lane i).msb = false ↔ ∃ v, k.Digit (y.lane i) v) ∧ ∀ v, k.Digit (y.lane i) v → (c2.lane i).toNat = v) :=
  ⟨decode_digits k (holds16 _) (holds16 _) (holds16 _) (holds16 _) hs x, decode_digits k (holds32 _) (holds32 _) (holds32 _) (holds32 _) hs y⟩

/-- C49: two vectors that agree in one lane, and in nothing else, are classified and decoded alike in that lane, even by different instruction sets. -/
theorem C49_context (k : Code) (s s' : Isa) (hs : s ≠ .sse2) (hs' : s' ≠ .sse2) (x y : V256) (i : Nat) (hi : i < 32) (h : x.lane i = y.lane i) :
    ∃ c1 c2 d1 d2, decode_ascii_xn s x k.alsw.check_lut.x2 k.alsw.decode_lut.x2 = some (c1, c2) ∧
      decode_ascii_xn s' y k.alsw.check_lut.x2 k.alsw.decode_lut.x2 = some (d1, d2) ∧
      (c1.lane i).msb = (d1.lane i).msb ∧ ((c1.lane i).msb = false → c2.lane i = d2.lane i) := by
  obtain ⟨-, c1, c2, hc, h1⟩ := C49_decode k s hs (.ofList []) x
  obtain ⟨-, d1, d2, hd, h2⟩ := C49_decode k s' hs' (.ofList []) y
  refine ⟨c1, c2, d1, d2, hc, hd, ?_, fun hm => ?_⟩
  · have h3 := (h1 i hi).1
    rw [h, ← (h2 i hi).1] at h3
    cases h5 : (c1.lane i).msb <;> cases h6 : (d1.lane i).msb <;> simp_all
  · obtain ⟨v, hv⟩ := (h1 i hi).1.1 hm
    apply BitVec.eq_of_toNat_eq
    rw [(h1 i hi).2 v hv, (h2 i hi).2 v (h ▸ hv)]

/-- The digit '/' between bytes that leak all ones and all zeros. -/
example : (Code.base64 false).Digit 0x2f#8 63 ∧ ¬ (∃ v, (Code.base64 true).Digit 0x2f#8 v) ∧ (Code.hex).Digit 0x46#8 15 := by
  refine ⟨⟨by decide, by decide⟩, ?_, ⟨by decide, by decide⟩⟩
  rw [← Code.invalid_iff]; decide

example : ∃ c1 c2, decode_ascii_xn .neon64 (.ofList [0xff#8, 0x2f#8, 0xff#8, 0x2f#8, 0x00#8] : V128) StandardAlsw.check_lut StandardAlsw.decode_lut = some (c1, c2) ∧
    (c1.lane 1).msb = false ∧ (c2.lane 1).toNat = 63 ∧ (c1.lane 3).msb = false ∧ (c2.lane 3).toNat = 63 := by
  obtain ⟨⟨c1, c2, h, hl⟩, -⟩ := C49_decode (.base64 false) .neon64 (by decide) (.ofList [0xff#8, 0x2f#8, 0xff#8, 0x2f#8, 0x00#8]) (.ofList [])
  have hd : ∀ j, j = 1 ∨ j = 3 → (Code.base64 false).Digit ((.ofList [0xff#8, 0x2f#8, 0xff#8, 0x2f#8, 0x00#8] : V128).lane j) 63 := by
    rintro j (rfl | rfl) <;> exact ⟨by decide, by decide⟩
  exact ⟨c1, c2, h, (hl 1 (by decide)).1.2 ⟨_, hd 1 (.inl rfl)⟩, (hl 1 (by decide)).2 _ (hd 1 (.inl rfl)), (hl 3 (by decide)).1.2 ⟨_, hd 3 (.inr rfl)⟩,
    (hl 3 (by decide)).2 _ (hd 3 (.inr rfl))⟩

end Vs
end Simd
