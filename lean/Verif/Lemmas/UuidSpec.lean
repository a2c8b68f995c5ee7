import Verif.Lemmas.Uuid
import Verif.Lemmas.HexSpec
import Verif.Lemmas.Run
import Verif.Spec.Uuid
/-
What the UUID implementations compute is what the specification says.
-/
namespace Simd.Uuid
open Vs Hex

/-- `hyph` with arbitrary separators. -/
def hyphW (d1 d2 d3 d4 : Byte) (t : List Byte) : List Byte :=
  t.take 8 ++ (d1 :: ((t.drop 8).take 4 ++ (d2 :: ((t.drop 12).take 4 ++ (d3 :: ((t.drop 16).take 4 ++ (d4 :: t.drop 20)))))))

theorem hyph_digits {ys : List Byte} (hl : ys.length = 36) : ys = hyphW (ys.getD 8 0) (ys.getD 13 0) (ys.getD 18 0) (ys.getD 23 0) (digits ys) := by
  obtain ⟨f, rfl⟩ := list_map hl
  rfl

theorem digits_hyph {t : List Byte} (hl : t.length = 32) : digits (hyph t) = t ∧ dashes (hyph t) = true := by
  obtain ⟨f, rfl⟩ := list_map hl
  exact ⟨rfl, rfl⟩

theorem eq_hyph_iff {ys t : List Byte} (hl : ys.length = 36) (ht : t.length = 32) : ys = hyph t ↔ dashes ys = true ∧ digits ys = t := by
  constructor
  · rintro rfl
    exact ⟨(digits_hyph ht).2, (digits_hyph ht).1⟩
  · rintro ⟨hd, rfl⟩
    simp only [dashes, Bool.and_eq_true, beq_iff_eq] at hd
    obtain ⟨⟨⟨h1, h2⟩, h3⟩, h4⟩ := hd
    have := hyph_digits hl
    rw [h1, h2, h3, h4] at this
    exact this

theorem lower_dash (c : Byte) : (Spec.toLower c == 0x2d#8) = (c == 0x2d#8) := by revert c; decide +kernel

theorem dashes_lower {xs : List Byte} (hl : xs.length = 36) : dashes (xs.map Spec.toLower) = dashes xs := by
  obtain ⟨f, rfl⟩ := list_map hl
  show (Spec.toLower (f 8) == 0x2d#8 && Spec.toLower (f 13) == 0x2d#8 && Spec.toLower (f 18) == 0x2d#8 && Spec.toLower (f 23) == 0x2d#8) = _
  rw [lower_dash, lower_dash, lower_dash, lower_dash]
  rfl

theorem digits_lower (xs : List Byte) : digits (xs.map Spec.toLower) = (digits xs).map Spec.toLower := by
  simp [digits, List.map_take, List.map_drop]

theorem hexEncode_take_drop (upper : Bool) (u : List Byte) (i k : Nat) (h : i + k ≤ u.length) :
    Spec.hexEncode upper ((u.drop i).take k) = ((Spec.hexEncode upper u).drop (2 * i)).take (2 * k) := by
  have := hexEnc_take_drop (if upper then .upper else .lower) u i k h
  rw [hexEnc_spec, hexEnc_spec] at this
  cases upper <;> exact this

theorem uuidHyphenated_eq (upper : Bool) {u : List Byte} (hl : u.length = 16) : Spec.uuidHyphenated upper u = hyph (Spec.hexEncode upper u) := by
  have h4 := hexEncode_take_drop upper u 0 4 (by omega)
  rw [List.drop_zero] at h4
  have h10 := hexEncode_take_drop upper u 10 6 (by omega)
  rw [List.take_of_length_le (by rw [List.length_drop]; omega)] at h10
  rw [Spec.uuidHyphenated, h4, hexEncode_take_drop upper u 4 2 (by omega), hexEncode_take_drop upper u 6 2 (by omega),
    hexEncode_take_drop upper u 8 2 (by omega), h10]
  have ht : (Spec.hexEncode upper u).length = 32 := by rw [hexEncode_length]; omega
  generalize Spec.hexEncode upper u = t at ht
  obtain ⟨f, rfl⟩ := list_map ht
  rfl

theorem hyph_enc (case : AsciiCase) {u : List Byte} (hl : u.length = 16) : hyph (hexEnc case u) = Spec.uuidHyphenated (case == .upper) u := by
  rw [uuidHyphenated_eq _ hl, hexEnc_spec]

theorem hyph_length {t : List Byte} (hl : t.length = 32) : (hyph t).length = 36 := by simp [hyph, hl]

theorem isSimple_iff {xs : List Byte} (hl : xs.length = 32) (u : List Byte) : hexDec xs = some u ↔ Spec.IsUuidSimple xs u := by
  constructor
  · intro h
    have hu := hexDec_length h
    exact ⟨by omega, (hexDec_spec xs u (by omega)).1 h⟩
  · rintro ⟨_, h⟩
    exact (hexDec_spec xs u (by omega)).2 h

theorem isSimple_length {xs u : List Byte} (h : Spec.IsUuidSimple xs u) : xs.length = 32 := by
  have := congrArg List.length h.2
  rw [List.length_map, Spec.uuidSimple, hexEncode_length, h.1] at this
  exact this

theorem isHyphenated_length {xs u : List Byte} (h : Spec.IsUuidHyphenated xs u) : xs.length = 36 := by
  have := congrArg List.length h.2
  rwa [List.length_map, uuidHyphenated_eq _ h.1, hyph_length (by rw [hexEncode_length, h.1])] at this

theorem isHyphenated_iff {xs : List Byte} (hl : xs.length = 36) (u : List Byte) : hypDec xs = some u ↔ Spec.IsUuidHyphenated xs u := by
  have hdl := digits_length hl
  have key : u.length = 16 → (xs.map Spec.toLower = Spec.uuidHyphenated false u ↔ dashes xs = true ∧ (digits xs).map Spec.toLower = Spec.hexEncode false u) := by
    intro hu
    rw [uuidHyphenated_eq _ hu, eq_hyph_iff (by simpa using hl) (by rw [hexEncode_length, hu]), dashes_lower hl, digits_lower]
  unfold hypDec
  constructor
  · intro h
    split at h
    · rename_i hd
      have hu := hexDec_length h
      exact ⟨by omega, (key (by omega)).2 ⟨hd, (hexDec_spec (digits xs) u (by omega)).1 h⟩⟩
    · cases h
  · rintro ⟨hu, h⟩
    obtain ⟨hd, h⟩ := (key hu).1 h
    rw [if_pos hd]
    exact (hexDec_spec (digits xs) u (by omega)).2 h

end Simd.Uuid
