import Verif.Model.Hex
import Verif.Lemmas.Alsw
import Verif.Lemmas.Blocks
import Verif.Lemmas.LoadStore
/-
The vectorised hex kernels compute the block functions `hexEnc` and `hexDec`.
-/
namespace Simd
namespace Hex
open Vs IsaId Intrin

/-- The two characters of a byte. -/
def encG (case : AsciiCase) (f : Nat → Byte) : List Byte :=
  [(charset case).getD (f 0 >>> 4).toNat 0, (charset case).getD (f 0 &&& 0x0f#8).toNat 0]
/-- The byte of two nibbles. -/
def decG (f : Nat → Byte) : List Byte := [shl4 (f 0) ||| f 1]

def hexEnc (case : AsciiCase) (xs : List Byte) : List Byte := blocks 1 (encG case) xs
def hexDec (xs : List Byte) : Option (List Byte) := decB parse_hex 2 decG xs

theorem encG_length (case) (f) : (encG case f).length = 2 := rfl
theorem encG_loc (case) (f f' : Nat → Byte) (h : ∀ r, r < 1 → f r = f' r) : encG case f = encG case f' := by
  simp [encG, h 0 (by omega)]
theorem decG_length (f) : (decG f).length = 1 := rfl
theorem decG_loc (f f' : Nat → Byte) (h : ∀ r, r < 2 → f r = f' r) : decG f = decG f' := by
  simp [decG, h 0 (by omega), h 1 (by omega)]

theorem hexEnc_append (case xs ys) : hexEnc case (xs ++ ys) = hexEnc case xs ++ hexEnc case ys :=
  blocks_append (by omega) (k := xs.length) (by omega) (encG_loc case)
theorem hexEnc_length (case xs) : (hexEnc case xs).length = 2 * xs.length := by
  rw [hexEnc, blocks_length (encG_length case), Nat.div_one]
@[simp] theorem hexEnc_nil (case) : hexEnc case [] = [] := blocks_nil
theorem hexDec_append {xs ys : List Byte} (h : xs.length % 2 = 0) :
    hexDec (xs ++ ys) = (hexDec xs).bind fun u => (hexDec ys).map (u ++ ·) :=
  decB_append (by omega) (k := xs.length / 2) (by omega) decG_loc
theorem hexDec_length {xs ys} (h : hexDec xs = some ys) : ys.length = xs.length / 2 := by
  rw [decB_length decG_length h, Nat.one_mul]
@[simp] theorem hexDec_nil : hexDec [] = some [] := decB_nil

theorem parse_hex_cases (c : Byte) : parse_hex c = 255#8 ∨ (parse_hex c).toNat < 16 := by
  revert c; decide +kernel

theorem hex_val (c : Byte) : HexAlsw.decode c = parse_hex c := rfl

/-! ### Encoding -/

theorem charset_swz (case : AsciiCase) : ∀ x ∈ charset case, (x : Byte).toNat < 128 := by
  cases case <;> decide

theorem encode_lut_eq (case) : encode_lut case = Vec.x2 (.ofList (charset case)) := by cases case <;> rfl

theorem lut_lane (case) (v : V256) {i} (hi : i < 32) (hv : (v.lane i).toNat < 16) :
    (shuffle_epi8 (encode_lut case) v).lane i = (charset case).getD (v.lane i).toNat 0 := by
  rw [encode_lut_eq, shuffle_holds (holds32 _) _ hi, lk, if_pos (by omega), Nat.mod_eq_of_lt hv]

theorem and15_lt (x : Byte) : (x &&& 15#8).toNat < 16 := by revert x; decide +kernel

theorem and15_or (v : V256) : ∀ i, ((Intrin.and v (set1_8 15#8)).lane i).toNat < 16 ∨ 128 ≤ ((Intrin.and v (set1_8 15#8)).lane i).toNat := by
  intro i; left; simp only [Intrin.and, map8_lane, set1_8_lane]; exact and15_lt _

theorem shr4_and (x : Byte) : (x >>> 4) &&& 15#8 = x >>> 4 := by revert x; decide +kernel

theorem widen_nibbles (v : V256) (x : V128) (hv : ∀ i < 32, v.lane i = (cvtepu8_epi16 x).lane i) {i} (hi : i < 32) :
    (Intrin.and (Intrin.or (shl16 8 v) (shr16 4 v)) (set1_8 15#8)).lane i =
      if i % 2 = 0 then x.lane (i / 2) >>> 4 else x.lane (i / 2) &&& 15#8 := by
  have h0 := hv (2 * (i / 2)) (by omega)
  have h1 := hv (2 * (i / 2) + 1) (by omega)
  rw [cvtepu8_lane, if_pos (by omega), show 2 * (i / 2) / 2 = i / 2 by omega] at h0
  rw [cvtepu8_lane, if_neg (by omega)] at h1
  have hn : (v.get16 (i / 2)).toNat = (x.lane (i / 2)).toNat := by rw [get16_toNat, h0, h1]; simp
  have hx := (x.lane (i / 2)).isLt
  simp only [Intrin.and, Intrin.or, map8_lane, set1_8_lane, shl16, shr16, of16_lane]
  rcases Nat.mod_two_eq_zero_or_one i with h | h
  · rw [if_pos h, h]
    have e1 : byteOf (v.get16 (i / 2) <<< 8) 0 = 0#8 := by
      apply BitVec.eq_of_toNat_eq
      rw [byteOf_toNat, BitVec.toNat_shiftLeft, hn, Nat.shiftLeft_eq]; simp
    have e2 : byteOf (v.get16 (i / 2) >>> 4) 0 = x.lane (i / 2) >>> 4 := by
      apply BitVec.eq_of_toNat_eq
      rw [byteOf_toNat, BitVec.toNat_ushiftRight, hn, BitVec.toNat_ushiftRight, Nat.shiftRight_eq_div_pow]; simp; omega
    rw [e1, e2, BitVec.zero_or, shr4_and]
  · rw [if_neg (by omega), h]
    have e1 : byteOf (v.get16 (i / 2) <<< 8) 1 = x.lane (i / 2) := by
      apply BitVec.eq_of_toNat_eq
      rw [byteOf_toNat, BitVec.toNat_shiftLeft, hn, Nat.shiftLeft_eq]; simp; omega
    have e2 : byteOf (v.get16 (i / 2) >>> 4) 1 = 0#8 := by
      apply BitVec.eq_of_toNat_eq
      rw [byteOf_toNat, BitVec.toNat_ushiftRight, hn, Nat.shiftRight_eq_div_pow]; simp; omega
    rw [e1, e2, BitVec.or_zero]

theorem shr4_lt (x : Byte) : (x >>> 4).toNat < 16 := by revert x; decide +kernel

theorem encode_bytes16_spec (s : Isa) (hs : s ≠ .sse2) (case) (xs : List Byte) (hl : xs.length = 16) :
    ∃ v, encode_bytes16 s (.ofList xs) (encode_lut case) = some v ∧ v.toList = hexEnc case xs := by
  obtain ⟨v, hv, hlane⟩ := u16x16_from_u8x16_eq s (.ofList xs)
  refine ⟨shuffle_epi8 (encode_lut case) (Intrin.and (Intrin.or (shl16 8 v) (shr16 4 v)) (set1_8 15#8)), ?_, ?_⟩
  · simp [encode_bytes16, hv]
    exact u8x16x2_swizzle_eq s hs _ _ (and15_or _)
  · apply eq_blocks (encG_length case)
    · simp [hl]
    · intro i hi
      have hi' : i < 32 := by simpa using hi
      rw [Vec.toList_getElem, lut_lane case _ hi' (by
        simp only [Intrin.and, map8_lane, set1_8_lane]; exact and15_lt _), widen_nibbles v _ hlane hi']
      simp only [Vec.ofList_lane]
      rcases Nat.mod_two_eq_zero_or_one i with h | h <;> rw [h] <;> simp [encG]

theorem shr16_4_and (x : V256) (i) : (Intrin.and (shr16 4 x) (set1_8 15#8)).lane i = x.lane i >>> 4 := by
  have h0 := (x.lane (2 * (i / 2))).isLt
  have h1 := (x.lane (2 * (i / 2) + 1)).isLt
  simp only [Intrin.and, map8_lane, set1_8_lane, shr16, of16_lane]
  apply BitVec.eq_of_toNat_eq
  rw [BitVec.toNat_and, show (15#8).toNat = 2 ^ 4 - 1 from rfl, Nat.and_two_pow_sub_one_eq_mod, byteOf_toNat,
    BitVec.toNat_ushiftRight, get16_toNat, BitVec.toNat_ushiftRight, Nat.shiftRight_eq_div_pow, Nat.shiftRight_eq_div_pow]
  rcases Nat.mod_two_eq_zero_or_one i with h | h
  · rw [h, show x.lane i = x.lane (2 * (i / 2)) by congr 1; omega]; simp; omega
  · rw [h, show x.lane i = x.lane (2 * (i / 2) + 1) by congr 1; omega]; simp; omega

theorem shr16_4_and' (x : V128) (i) : (Intrin.and (shr16 4 x) (set1_8 15#8)).lane i = x.lane i >>> 4 :=
  shr16_4_and (⟨x.lane⟩ : V256) i

theorem encode_bytes32_spec (s : Isa) (hs : s ≠ .sse2) (case) (xs : List Byte) (hl : xs.length = 32) :
    ∃ v w, encode_bytes32 s (.ofList xs) (encode_lut case) = some (v, w) ∧ v.toList ++ w.toList = hexEnc case xs := by
  let x : V256 := .ofList xs
  let hi := Intrin.and (shr16 4 x) (set1_8 15#8)
  let lo := Intrin.and x (set1_8 15#8)
  have hhi : ∀ i, hi.lane i = x.lane i >>> 4 := shr16_4_and x
  have hlo : ∀ i, lo.lane i = x.lane i &&& 15#8 := fun i => by simp [lo, Intrin.and]
  let ab := join (unpacklo8 hi lo).lo (unpackhi8 hi lo).lo
  let cd := join (unpacklo8 hi lo).hi (unpackhi8 hi lo).hi
  have hab : ∀ i, i < 32 → ab.lane i = if i % 2 = 0 then x.lane (i / 2) >>> 4 else x.lane (i / 2) &&& 15#8 := by
    intro i hi'
    simp only [ab, join_lane, lo_lane, unpacklo8_lane, unpackhi8_lane, hhi, hlo]
    split
    · rw [show i / 16 * 16 + i % 16 / 2 = i / 2 by omega]
    · rw [show (i - 16) / 16 * 16 + 8 + (i - 16) % 16 / 2 = i / 2 by omega, show (i - 16) % 2 = i % 2 by omega]
  have hcd : ∀ i, i < 32 → cd.lane i = if i % 2 = 0 then x.lane (16 + i / 2) >>> 4 else x.lane (16 + i / 2) &&& 15#8 := by
    intro i hi'
    simp only [cd, join_lane, hi_lane, unpacklo8_lane, unpackhi8_lane, hhi, hlo]
    split
    · rw [show (16 + i) / 16 * 16 + (16 + i) % 16 / 2 = 16 + i / 2 by omega, show (16 + i) % 2 = i % 2 by omega]
    · rw [show (16 + (i - 16)) / 16 * 16 + 8 + (16 + (i - 16)) % 16 / 2 = 16 + i / 2 by omega, show (16 + (i - 16)) % 2 = i % 2 by omega]
  have hlt : ∀ (a b : V128), (∀ i, (a.lane i).toNat < 16) → (∀ i, (b.lane i).toNat < 16) → ∀ i, ((join a b).lane i).toNat < 16 := by
    intro a b ha hb i; rw [join_lane]; split
    · exact ha _
    · exact hb _
  have hz : ∀ i, ((unpacklo8 hi lo).lane i).toNat < 16 ∧ ((unpackhi8 hi lo).lane i).toNat < 16 := by
    intro i; rw [unpacklo8_lane, unpackhi8_lane]; simp only [hhi, hlo]
    split <;> simp only [shr4_lt, and15_lt, and_self]
  have labn : ∀ i, (ab.lane i).toNat < 16 := hlt _ _ (fun i => (hz i).1) (fun i => (hz i).2)
  have lcdn : ∀ i, (cd.lane i).toNat < 16 := hlt _ _ (fun i => (hz (16 + i)).1) (fun i => (hz (16 + i)).2)
  refine ⟨shuffle_epi8 (encode_lut case) ab, shuffle_epi8 (encode_lut case) cd, ?_, ?_⟩
  · simp only [encode_bytes32, u8x32_splat_eq, u16x16_shr_eq, v256_and_eq, u8x16x2_zip_lo_eq, u8x16x2_zip_hi_eq,
      v128x2_zip_lo_eq, v128x2_zip_hi_eq, Option.bind_eq_bind, Option.bind_some]
    rw [show u8x16x2_swizzle s (encode_lut case) (join (unpacklo8 (Intrin.and (shr16 4 (Vec.ofList xs)) (set1_8 15)) (Intrin.and (Vec.ofList xs) (set1_8 15))).lo
        (unpackhi8 (Intrin.and (shr16 4 (Vec.ofList xs)) (set1_8 15)) (Intrin.and (Vec.ofList xs) (set1_8 15))).lo) = some (shuffle_epi8 (encode_lut case) ab) from
      u8x16x2_swizzle_eq s hs _ _ (fun i => .inl (labn i))]
    rw [show u8x16x2_swizzle s (encode_lut case) (join (unpacklo8 (Intrin.and (shr16 4 (Vec.ofList xs)) (set1_8 15)) (Intrin.and (Vec.ofList xs) (set1_8 15))).hi
        (unpackhi8 (Intrin.and (shr16 4 (Vec.ofList xs)) (set1_8 15)) (Intrin.and (Vec.ofList xs) (set1_8 15))).hi) = some (shuffle_epi8 (encode_lut case) cd) from
      u8x16x2_swizzle_eq s hs _ _ (fun i => .inl (lcdn i))]
    rfl
  · apply eq_blocks (encG_length case)
    · simp [hl]
    · intro i hi'
      have h64 : i < 64 := by simpa using hi'
      by_cases h : i < 32
      · rw [List.getElem_append_left (by simpa using h), Vec.toList_getElem, lut_lane case _ h (labn i), hab i h]
        simp only [x, Vec.ofList_lane]
        rcases Nat.mod_two_eq_zero_or_one i with h | h <;> rw [h] <;> simp [encG]
      · rw [List.getElem_append_right (by simp; omega), Vec.toList_getElem]
        simp only [Vec.toList_length]
        rw [lut_lane case _ (by omega) (lcdn _), hcd _ (by omega)]
        simp only [x, Vec.ofList_lane]
        rw [show 16 + (i - 32) / 2 = i / 2 by omega, show (i - 32) % 2 = i % 2 by omega]
        rcases Nat.mod_two_eq_zero_or_one i with h | h <;> rw [h] <;> simp [encG]

/-- `sse2::encode16` on one nibble. -/
theorem sse2_nibble (case : AsciiCase) (x : Byte) (h : x.toNat < 16) :
    (x + 0x30#8) + (maskOf 8 ((0x39#8).slt (x + 0x30#8)) &&& (if case = .lower then 0x27#8 else 0x07#8)) = (charset case).getD x.toNat 0 := by
  have : ∀ k : Fin 16, ((BitVec.ofNat 8 k : Byte) + 0x30#8) + (maskOf 8 ((0x39#8).slt ((BitVec.ofNat 8 k : Byte) + 0x30#8)) &&& (if case = .lower then 0x27#8 else 0x07#8)) = (charset case).getD k 0 := by
    cases case <;> decide
  have := this ⟨x.toNat, h⟩
  simpa using this

theorem sse2_offset_lane (case : AsciiCase) {i} (hi : i < 16) : (sse2_offset case).lane i = if case = .lower then 0x27#8 else 0x07#8 := by
  cases case <;> simp only [sse2_offset, Vec.ofList_lane, List.getD_eq_getElem?_getD, List.getElem?_replicate, if_pos hi] <;> rfl

theorem sse2_encode16_spec (case) (xs : List Byte) (hl : xs.length = 16) :
    ∃ v w, sse2_encode16 (.ofList xs) (sse2_offset case) = some (v, w) ∧ v.toList ++ w.toList = hexEnc case xs := by
  let x : V128 := .ofList xs
  let h3 := add8 (add8 (Intrin.and (shr16 4 x) (set1_8 15#8)) (set1_8 0x30#8))
    (Intrin.and (lt_i8 (set1_8 0x39#8) (add8 (Intrin.and (shr16 4 x) (set1_8 15#8)) (set1_8 0x30#8))) (sse2_offset case))
  let l3 := add8 (add8 (Intrin.and x (set1_8 15#8)) (set1_8 0x30#8))
    (Intrin.and (lt_i8 (set1_8 0x39#8) (add8 (Intrin.and x (set1_8 15#8)) (set1_8 0x30#8))) (sse2_offset case))
  have hh : ∀ i, i < 16 → h3.lane i = (charset case).getD (x.lane i >>> 4).toNat 0 := by
    intro i hi
    have := shr16_4_and' x i
    simp only [h3, add8, Intrin.and, lt_i8, map8_lane, set1_8_lane] at this ⊢
    rw [this, sse2_offset_lane case hi]
    exact sse2_nibble case _ (shr4_lt _)
  have hl3 : ∀ i, i < 16 → l3.lane i = (charset case).getD (x.lane i &&& 15#8).toNat 0 := by
    intro i hi
    simp only [l3, add8, Intrin.and, lt_i8, map8_lane, set1_8_lane]
    rw [sse2_offset_lane case hi]
    exact sse2_nibble case _ (and15_lt _)
  refine ⟨unpacklo8 h3 l3, unpackhi8 h3 l3, ?_, ?_⟩
  · simp [sse2_encode16, h3, l3, x]
  · apply eq_blocks (encG_length case)
    · simp [hl]
    · intro i hi'
      have h32 : i < 32 := by simpa using hi'
      by_cases h : i < 16
      · rw [List.getElem_append_left (by simpa using h), Vec.toList_getElem, unpacklo8_lane,
          show i / 16 * 16 + i % 16 / 2 = i / 2 by omega, hh _ (by omega), hl3 _ (by omega)]
        simp only [x, Vec.ofList_lane]
        rcases Nat.mod_two_eq_zero_or_one i with h | h <;> rw [h] <;> simp [encG]
      · rw [List.getElem_append_right (by simp; omega), Vec.toList_getElem]
        simp only [Vec.toList_length]
        rw [unpackhi8_lane, show (i - 16) / 16 * 16 + 8 + (i - 16) % 16 / 2 = i / 2 by omega, hh _ (by omega), hl3 _ (by omega),
          show (i - 16) % 2 = i % 2 by omega]
        simp only [x, Vec.ofList_lane]
        rcases Nat.mod_two_eq_zero_or_one i with h | h <;> rw [h] <;> simp [encG]

/-! ### Decoding -/

theorem merge_lane {n} (c : Vec n) (j) (h0 : (c.lane (2 * j)).toNat < 16) (h1 : (c.lane (2 * j + 1)).toNat < 16) :
    (Intrin.or (shl16 4 c) (shr16 12 (shl16 4 c))).lane (2 * j) = shl4 (c.lane (2 * j)) ||| c.lane (2 * j + 1) := by
  have hn := get16_toNat c j
  simp only [Intrin.or, map8_lane, shl16, shr16, of16_lane, get16_of16]
  rw [show 2 * j / 2 = j by omega, show 2 * j % 2 = 0 by omega]
  have e1 : byteOf (c.get16 j <<< 4) 0 = shl4 (c.lane (2 * j)) := by
    apply BitVec.eq_of_toNat_eq
    rw [byteOf_toNat, BitVec.toNat_shiftLeft, hn, shl4, BitVec.toNat_shiftLeft, Nat.shiftLeft_eq, Nat.shiftLeft_eq]; simp; omega
  have e2 : byteOf (c.get16 j <<< 4 >>> 12) 0 = c.lane (2 * j + 1) := by
    apply BitVec.eq_of_toNat_eq
    rw [byteOf_toNat, BitVec.toNat_ushiftRight, BitVec.toNat_shiftLeft, hn, Nat.shiftLeft_eq, Nat.shiftRight_eq_div_pow]; simp; omega
  rw [e1, e2]

/-- What `decode16`/`decode32` return for the input `x`. -/
structure Decoded {n} (x y inv : Vec n) : Prop where
  inv : ∀ i, i < n → (inv.lane i).msb = (parse_hex (x.lane i) == 255#8)
  val : ∀ j, 2 * j + 1 < n → parse_hex (x.lane (2 * j)) ≠ 255#8 → parse_hex (x.lane (2 * j + 1)) ≠ 255#8 →
    y.lane (2 * j) = shl4 (parse_hex (x.lane (2 * j))) ||| parse_hex (x.lane (2 * j + 1))

theorem decoded_of {n} {x c1 c2 : Vec n} (h : ∀ i, i < n → (c1.lane i).msb = (HexAlsw.decode (x.lane i) == 255#8) ∧
        (HexAlsw.decode (x.lane i) ≠ 255#8 → c2.lane i = HexAlsw.decode (x.lane i))) :
    Decoded x (Intrin.or (shl16 4 c2) (shr16 12 (shl16 4 c2))) c1 := by
  refine ⟨fun i hi => (h i hi).1, fun j hj h0 h1 => ?_⟩
  have e0 := (h (2 * j) (by omega)).2 h0
  have e1 := (h (2 * j + 1) (by omega)).2 h1
  rw [hex_val] at e0 e1
  have l0 := (parse_hex_cases (x.lane (2 * j))).resolve_left h0
  have l1 := (parse_hex_cases (x.lane (2 * j + 1))).resolve_left h1
  rw [merge_lane _ _ (by rw [e0]; exact l0) (by rw [e1]; exact l1), e0, e1]

theorem hex_decode16_spec (s : Isa) (hs : s ≠ .sse2) (x : V128) :
    ∃ y inv, hex_decode16 s x = some (y, inv) ∧ Decoded x y inv := by
  obtain ⟨c1, c2, he, h⟩ := decode_ascii_xn_spec HexAlsw_good (check := HexAlsw.check_lut) (decode := HexAlsw.decode_lut)
    (holds16 _) (holds16 _) (holds16 _) (holds16 _) s hs x
  exact ⟨_, _, by simp [hex_decode16, he, hex_merge_bits], decoded_of h⟩

theorem hex_decode32_spec (s : Isa) (hs : s ≠ .sse2) (x : V256) :
    ∃ y inv, hex_decode32 s x = some (y, inv) ∧ Decoded x y inv := by
  obtain ⟨c1, c2, he, h⟩ := decode_ascii_xn_spec HexAlsw_good (check := HexAlsw.check_lut.x2) (decode := HexAlsw.decode_lut.x2)
    (holds32 _) (holds32 _) (holds32 _) (holds32 _) s hs x
  exact ⟨_, _, by simp [hex_decode32, he, hex_merge_bits], decoded_of h⟩

/-- A vector whose lane `i` is the byte of characters `2i`, `2i+1` is the decoded text. -/
theorem hexDec_eq_some {k} (v : Vec k) (xs : List Byte) (hl : xs.length = 2 * k)
    (hv : ∀ c ∈ xs, parse_hex c ≠ 255#8)
    (h : ∀ i, i < k → v.lane i = shl4 (parse_hex (xs.getD (2 * i) 0)) ||| parse_hex (xs.getD (2 * i + 1) 0)) :
    hexDec xs = some v.toList := by
  unfold hexDec decB
  rw [if_pos (by rw [List.all_eq_true]; intro c hc; rw [bne_iff_ne]; exact hv c hc)]
  congr 1; symm
  apply eq_blocks decG_length
  · simp [hl]
  · intro i hi
    have hi' : i < k := by simpa using hi
    rw [Vec.toList_getElem, h i hi']
    have e : ∀ r, r < 2 → (xs.map parse_hex).getD (2 * i + r) 0 = parse_hex (xs.getD (2 * i + r) 0) := by
      intro r hr
      have : 2 * i + r < xs.length := by omega
      simp [List.getD_eq_getElem?_getD, List.getElem?_eq_getElem this]
    rw [show i / 1 = i by omega, show i % 1 = 0 by omega]
    simp only [decG, e 0 (by omega), e 1 (by omega)]; rfl

theorem hexDec_eq_none {xs : List Byte} (h : ∃ c ∈ xs, parse_hex c = 255#8) : hexDec xs = none := decB_none_iff.2 h

theorem any_invalid {n} (xs : List Byte) (hl : xs.length = n) :
    (anyLane n fun i => parse_hex ((Vec.ofList xs : Vec n).lane i) == 255#8) = true ↔ ∃ c ∈ xs, parse_hex c = 255#8 := by
  rw [anyLane_iff]
  constructor
  · rintro ⟨i, hi, h⟩
    rw [Vec.ofList_lane, List.getD_eq_getElem?_getD, List.getElem?_eq_getElem (by omega)] at h
    exact ⟨_, List.getElem_mem (show i < xs.length by omega), by simpa using h⟩
  · rintro ⟨c, hc, h⟩
    obtain ⟨i, hi, rfl⟩ := List.getElem_of_mem hc
    refine ⟨i, by omega, ?_⟩
    rw [Vec.ofList_lane, List.getD_eq_getElem?_getD, List.getElem?_eq_getElem hi]
    simpa using h

theorem any_inv {n} {x y inv : Vec n} (h : Decoded x y inv) :
    (anyLane n fun i => (inv.lane i).msb) = anyLane n fun i => parse_hex (x.lane i) == 255#8 :=
  anyLane_congr h.inv

/-- Result of a kernel that decodes `xs`. -/
def DecRes {k} (xs : List Byte) (r : Except Unit (Vec k)) : Prop :=
  match r with
  | .ok v => hexDec xs = some v.toList
  | .error _ => hexDec xs = none

theorem UZP1_idx : ∀ x ∈ ([0x00, 0x02, 0x04, 0x06, 0x08, 0x0a, 0x0c, 0x0e, 0x80, 0x80, 0x80, 0x80, 0x80, 0x80, 0x80, 0x80] : List Byte),
    x.toNat < 16 ∨ 128 ≤ x.toNat := by decide
theorem UZP2_idx : ∀ x ∈ ([0x80, 0x80, 0x80, 0x80, 0x80, 0x80, 0x80, 0x80, 0x00, 0x02, 0x04, 0x06, 0x08, 0x0a, 0x0c, 0x0e] : List Byte),
    x.toNat < 16 ∨ 128 ≤ x.toNat := by decide

theorem decode_ascii16_spec (s : Isa) (hs : s ≠ .sse2) (xs : List Byte) (hl : xs.length = 16) :
    ∃ r, Vs.decode_ascii16 s (.ofList xs) = some r ∧ DecRes xs r := by
  obtain ⟨y, inv, he, hd⟩ := hex_decode16_spec s hs (.ofList xs)
  obtain ⟨ans, ha, hlane⟩ : ∃ ans : V64, decode_ascii16_ans s y = some ans ∧ ∀ i, i < 8 → ans.lane i = y.lane (2 * i) := by
    unfold decode_ascii16_ans
    rw [show u8x16_swizzle s y DECODE_UZP1 = some (shuffle_epi8 y DECODE_UZP1) from swz16 hs y UZP1_idx]
    cases s <;> simp only [u8x8_unzip_even, Isa.is] at hs ⊢
    all_goals first
      | exact (hs rfl).elim
      | (refine ⟨_, rfl, fun i hi => ?_⟩
         interval_cases i <;> simp [shuffle_lane, DECODE_UZP1, uzp1_64_lane])
  simp only [decode_ascii16, he, Option.bind_eq_bind, Option.bind_some, ha, u8x16_highbit_any_eq, any_inv hd]
  by_cases hb : (anyLane 16 fun i => parse_hex ((Vec.ofList xs : V128).lane i) == 255#8) = true
  · rw [hb]
    exact ⟨_, rfl, hexDec_eq_none ((any_invalid xs hl).1 hb)⟩
  · have hv : ∀ c ∈ xs, parse_hex c ≠ 255#8 := fun c hc h => hb ((any_invalid xs hl).2 ⟨c, hc, h⟩)
    rw [Bool.not_eq_true] at hb
    rw [hb]
    refine ⟨_, rfl, hexDec_eq_some _ _ hl hv fun i hi => ?_⟩
    have hm : ∀ k, k < 16 → parse_hex ((Vec.ofList xs : V128).lane k) ≠ 255#8 := by
      intro k hk; rw [anyLane_false] at hb; simpa using hb k hk
    rw [hlane i hi, hd.val i (by omega) (hm _ (by omega)) (hm _ (by omega))]; rfl

theorem decode_ascii32_lanes (s : Isa) (hs : s ≠ .sse2) (x : V256) (xs : List Byte) (hl : xs.length = 32) (hx : ∀ i, i < 32 → x.lane i = xs.getD i 0) :
    ∃ r, Vs.decode_ascii32 s x = some r ∧ DecRes xs r := by
  obtain ⟨y, inv, he, hd⟩ := hex_decode32_spec s hs x
  obtain ⟨ans, ha, hlane⟩ : ∃ ans : V128, decode_ascii32_ans s y = some ans ∧ ∀ i, i < 16 → ans.lane i = y.lane (2 * i) := by
    unfold decode_ascii32_ans
    rw [show u8x16x2_swizzle s y DECODE_UZP1.x2 = some (shuffle_epi8 y DECODE_UZP1.x2) from swzx2 hs y UZP1_idx]
    simp only [u64x2_zip_lo_eq, Option.bind_eq_bind, Option.bind_some]
    cases s <;> simp only [u8x16_unzip_even, Isa.is] at hs ⊢
    all_goals first
      | exact (hs rfl).elim
      | (refine ⟨_, rfl, fun i hi => ?_⟩
         interval_cases i <;> simp [shuffle_lane, DECODE_UZP1, uzp1_128_lane, unpacklo64_lane, x2_ofList_lane])
  simp only [decode_ascii32, he, Option.bind_eq_bind, Option.bind_some, ha, u8x32_highbit_any_eq, any_inv hd,
    anyLane_congr (n := 32) (p := fun i => parse_hex (x.lane i) == 255#8) (q := fun i => parse_hex ((Vec.ofList xs : V256).lane i) == 255#8)
      (fun i hi => by rw [hx i hi, Vec.ofList_lane])]
  by_cases hb : (anyLane 32 fun i => parse_hex ((Vec.ofList xs : V256).lane i) == 255#8) = true
  · rw [hb]
    exact ⟨_, rfl, hexDec_eq_none ((any_invalid xs hl).1 hb)⟩
  · have hv : ∀ c ∈ xs, parse_hex c ≠ 255#8 := fun c hc h => hb ((any_invalid xs hl).2 ⟨c, hc, h⟩)
    rw [Bool.not_eq_true] at hb
    rw [hb]
    refine ⟨_, rfl, hexDec_eq_some _ _ hl hv fun i hi => ?_⟩
    have hm : ∀ k, k < 32 → parse_hex (x.lane k) ≠ 255#8 := by
      intro k hk; rw [anyLane_false] at hb; rw [hx k hk]; simpa using hb k hk
    rw [hlane i hi, hd.val i (by omega) (hm _ (by omega)) (hm _ (by omega)), hx _ (by omega), hx _ (by omega)]

theorem decode_ascii32_spec (s : Isa) (hs : s ≠ .sse2) (xs : List Byte) (hl : xs.length = 32) :
    ∃ r, Vs.decode_ascii32 s (.ofList xs) = some r ∧ DecRes xs r :=
  decode_ascii32_lanes s hs _ xs hl fun _ _ => rfl

theorem decode_ascii32x2_spec (s : Isa) (hs : s ≠ .sse2) (xs ys : List Byte) (hl : xs.length = 32) (hl' : ys.length = 32) :
    ∃ r, Vs.decode_ascii32x2 s (.ofList xs) (.ofList ys) = some r ∧ DecRes (xs ++ ys) r := by
  obtain ⟨y1, inv1, he1, hd1⟩ := hex_decode32_spec s hs (.ofList xs)
  obtain ⟨y2, inv2, he2, hd2⟩ := hex_decode32_spec s hs (.ofList ys)
  obtain ⟨ans, ha, hlane⟩ : ∃ ans : V256, decode_ascii32x2_ans s y1 y2 = some ans ∧ (∀ i, i < 16 → ans.lane i = y1.lane (2 * i)) ∧ (∀ i, i < 16 → ans.lane (16 + i) = y2.lane (2 * i)) := by
    unfold decode_ascii32x2_ans
    rw [show u8x16x2_swizzle s y1 DECODE_UZP1.x2 = some (shuffle_epi8 y1 DECODE_UZP1.x2) from swzx2 hs _ UZP1_idx]
    rw [show u8x16x2_swizzle s y2 DECODE_UZP1.x2 = some (shuffle_epi8 y2 DECODE_UZP1.x2) from swzx2 hs _ UZP1_idx]
    rw [show u8x16x2_swizzle s y2 DECODE_UZP2.x2 = some (shuffle_epi8 y2 DECODE_UZP2.x2) from swzx2 hs _ UZP2_idx]
    simp only [u64x4_unzip_even, u64x2_zip_lo_eq, v256_or_eq, Option.bind_eq_bind, Option.bind_some]
    cases s <;> simp only [u8x32_unzip_even, u8x16_unzip_even, u64x4_permute, Isa.is, Option.bind_eq_bind] at hs ⊢
    all_goals first
      | exact (hs rfl).elim
      | (refine ⟨_, rfl, fun i hi => ?_, fun i hi => ?_⟩ <;>
         interval_cases i <;> simp [shuffle_lane, DECODE_UZP1, DECODE_UZP2, uzp1_128_lane, unpacklo64_lane, x2_ofList_lane, join_lane, permute4x64_lane, Intrin.or])
  have hor : (anyLane 32 fun i => ((Intrin.or inv1 inv2).lane i).msb) =
      ((anyLane 32 fun i => parse_hex ((Vec.ofList xs : V256).lane i) == 255#8) || anyLane 32 fun i => parse_hex ((Vec.ofList ys : V256).lane i) == 255#8) := by
    rw [← any_inv hd1, ← any_inv hd2, Bool.eq_iff_iff, Bool.or_eq_true, anyLane_iff, anyLane_iff, anyLane_iff]
    simp only [Intrin.or, map8_lane, msb_or, Bool.or_eq_true]
    constructor
    · rintro ⟨i, hi, h | h⟩
      · exact .inl ⟨i, hi, h⟩
      · exact .inr ⟨i, hi, h⟩
    · rintro (⟨i, hi, h⟩ | ⟨i, hi, h⟩)
      · exact ⟨i, hi, .inl h⟩
      · exact ⟨i, hi, .inr h⟩
  simp only [decode_ascii32x2, he1, he2, ha, Option.bind_eq_bind, Option.bind_some, v256_or_eq, u8x32_highbit_any_eq, hor]
  by_cases hb : ((anyLane 32 fun i => parse_hex ((Vec.ofList xs : V256).lane i) == 255#8) || anyLane 32 fun i => parse_hex ((Vec.ofList ys : V256).lane i) == 255#8) = true
  · rw [hb]
    refine ⟨_, rfl, hexDec_eq_none ?_⟩
    rcases Bool.or_eq_true _ _ ▸ hb with h | h
    · obtain ⟨c, hc, h⟩ := (any_invalid xs hl).1 h
      exact ⟨c, by simp [hc], h⟩
    · obtain ⟨c, hc, h⟩ := (any_invalid ys hl').1 h
      exact ⟨c, by simp [hc], h⟩
  · rw [Bool.not_eq_true] at hb
    rw [hb]
    rw [Bool.or_eq_false_iff] at hb
    have hv1 : ∀ c ∈ xs, parse_hex c ≠ 255#8 := fun c hc h => by
      have := (any_invalid xs hl).2 ⟨c, hc, h⟩; rw [hb.1] at this; cases this
    have hv2 : ∀ c ∈ ys, parse_hex c ≠ 255#8 := fun c hc h => by
      have := (any_invalid ys hl').2 ⟨c, hc, h⟩; rw [hb.2] at this; cases this
    refine ⟨_, rfl, hexDec_eq_some _ _ (by simp [hl, hl']) (by simp only [List.mem_append]; rintro c (h | h); exacts [hv1 c h, hv2 c h]) fun i hi => ?_⟩
    have hm1 : ∀ k, k < 32 → parse_hex ((Vec.ofList xs : V256).lane k) ≠ 255#8 := by
      intro k hk; have := hb.1; rw [anyLane_false] at this; simpa using this k hk
    have hm2 : ∀ k, k < 32 → parse_hex ((Vec.ofList ys : V256).lane k) ≠ 255#8 := by
      intro k hk; have := hb.2; rw [anyLane_false] at this; simpa using this k hk
    by_cases h : i < 16
    · rw [hlane.1 i h, hd1.val i (by omega) (hm1 _ (by omega)) (hm1 _ (by omega))]
      simp only [Vec.ofList_lane, List.getD_eq_getElem?_getD]
      rw [List.getElem?_append_left (by omega), List.getElem?_append_left (by omega)]
    · have := hlane.2 (i - 16) (by omega)
      rw [show 16 + (i - 16) = i by omega] at this
      rw [this, hd2.val (i - 16) (by omega) (hm2 _ (by omega)) (hm2 _ (by omega))]
      simp only [Vec.ofList_lane, List.getD_eq_getElem?_getD]
      rw [List.getElem?_append_right (by omega), List.getElem?_append_right (by omega), hl,
        show 2 * i - 32 = 2 * (i - 16) by omega, show 2 * i + 1 - 32 = 2 * (i - 16) + 1 by omega]

/-! ### SSE2 -/

/-- One lane of `sse2::decode_nibbles`: the nibble. -/
def nib (x : Byte) : Byte :=
  let t3 := BitVec.ofNat 8 ((x + 0xc6#8).toNat - 6) - 0xf0#8
  let t6 := BitVec.ofNat 8 (min 255 (((x &&& 0xdf#8) - 0x41#8).toNat + 10))
  if t3.ult t6 then t3 else t6

theorem nib_spec (x : Byte) : (BitVec.ofNat 8 (min 255 ((nib x).toNat + 112)) : Byte).msb = (parse_hex x == 255#8) ∧
    (parse_hex x ≠ 255#8 → nib x = parse_hex x) := by
  revert x; decide +kernel

theorem sse2_decode_nibbles_spec (x : V128) : ∃ n f, sse2_decode_nibbles x = some (n, f) ∧
    (∀ i, (f.lane i).msb = (parse_hex (x.lane i) == 255#8)) ∧ ∀ i, parse_hex (x.lane i) ≠ 255#8 → n.lane i = parse_hex (x.lane i) := by
  have e : sse2_decode_nibbles x = some (⟨fun i => nib (x.lane i)⟩, ⟨fun i => BitVec.ofNat 8 (min 255 ((nib (x.lane i)).toNat + 112))⟩) := by
    simp [sse2_decode_nibbles]
    constructor <;> rfl
  exact ⟨_, _, e, fun i => (nib_spec _).1, fun i => (nib_spec _).2⟩

theorem packus1_small (x : BitVec 16) (h : x.toNat < 256) : packus1 x = BitVec.ofNat 8 x.toNat := by
  have : x.toInt = x.toNat := by
    rw [BitVec.toInt_eq_toNat_of_lt]; omega
  rw [packus1, this, Int.toNat_natCast, Nat.min_eq_right (by omega)]

theorem sse2_merge_bits_spec (c : V128) : ∃ v, sse2_merge_bits c = some v ∧ ∀ j, j < 8 →
    (c.lane (2 * j)).toNat < 16 → (c.lane (2 * j + 1)).toNat < 16 → v.lane j = shl4 (c.lane (2 * j)) ||| c.lane (2 * j + 1) := by
  refine ⟨_, by simp [sse2_merge_bits, i16x8_packus, Isa.is]; rfl, fun j hj h0 h1 => ?_⟩
  have hn := get16_toNat c j
  simp only [lo64_lane, packus, if_pos hj]
  have e1 : byteOf (c.get16 j >>> 8) 0 = c.lane (2 * j + 1) := by
    apply BitVec.eq_of_toNat_eq
    rw [byteOf_toNat, BitVec.toNat_ushiftRight, hn, Nat.shiftRight_eq_div_pow]; simp; omega
  have e2 : byteOf (c.get16 j <<< 4) 0 = shl4 (c.lane (2 * j)) := by
    apply BitVec.eq_of_toNat_eq
    rw [byteOf_toNat, BitVec.toNat_shiftLeft, hn, shl4, BitVec.toNat_shiftLeft, Nat.shiftLeft_eq, Nat.shiftLeft_eq]; simp; omega
  have hg := get16_toNat (Intrin.and (Intrin.or (shr16 8 c) (shl16 4 c)) (set1_16 255#16)) j
  simp only [Intrin.and, Intrin.or, map8_lane, shl16, shr16, set1_16, of16_lane] at hg ⊢
  simp only [show 2 * j / 2 = j by omega, show 2 * j % 2 = 0 by omega, show (2 * j + 1) / 2 = j by omega, show (2 * j + 1) % 2 = 1 by omega, e1, e2] at hg
  have z1 : byteOf (255#16) 1 = 0#8 := by decide
  have z0 : byteOf (255#16) 0 = 255#8 := by decide
  rw [z1, z0, BitVec.and_zero] at hg
  have hff : ∀ z : Byte, z &&& 255#8 = z := fun z => BitVec.and_allOnes
  rw [hff] at hg
  rw [packus1_small _ (by rw [hg]; simpa using (c.lane (2 * j + 1) ||| shl4 (c.lane (2 * j))).isLt), hg]
  simp [BitVec.or_comm]

end Hex
end Simd
