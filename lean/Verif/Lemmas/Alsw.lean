import Verif.Lemmas.Scalable
/-
Correctness of the ALSW classifier: for each of the five tables and every byte, whatever three bits leak in
from the neighbouring byte, the check result and the decoded value depend on the byte alone.
-/
namespace Simd
namespace Vs
open IsaId Intrin

/-- `pshufb` on one lane with a 16-entry table. -/
def lk (L : List Byte) (y : Byte) : Byte := if y.toNat < 128 then L.getD (y.toNat % 16) 0 else 0
/-- The 32-bit shift by three seen from one byte lane: three bits `t` of the next byte leak in. -/
def leak (c : Byte) (t : Nat) : Byte := BitVec.ofNat 8 (c.toNat / 8 + 32 * t)
/-- One lane of the check result. -/
def lane1 (CH CO : List Byte) (c : Byte) (t : Nat) : Byte :=
  satI8 (c.toInt + (lk CO (BitVec.ofNat 8 (((leak c t).toNat + (lk CH c).toNat + 1) / 2))).toInt)
/-- One lane of the decode result. -/
def lane2 (DH DO : List Byte) (c : Byte) (t : Nat) : Byte :=
  c + lk DO (BitVec.ofNat 8 (((leak c t).toNat + (lk DH c).toNat + 1) / 2))

/-- A table works for each byte and each leaked bit pattern. -/
def GoodTables (A : AlswSpec) (CH CO DH DO : List Byte) : Prop :=
  ∀ c : Fin 256, ∀ t : Fin 8,
    (lane1 CH CO (BitVec.ofFin c) t).msb = (A.decode (BitVec.ofFin c) == 255#8) ∧
    (A.decode (BitVec.ofFin c) ≠ 255#8 → lane2 DH DO (BitVec.ofFin c) t = A.decode (BitVec.ofFin c))

instance (A CH CO DH DO) : Decidable (GoodTables A CH CO DH DO) := by unfold GoodTables; infer_instance

def GoodSpec (A : AlswSpec) : Prop := GoodTables A A.CHECK_HASH A.CHECK_OFFSET A.DECODE_HASH A.DECODE_OFFSET

theorem HexAlsw_tables : HexAlsw.CHECK_HASH = [1#8, 1#8, 1#8, 1#8, 1#8, 1#8, 1#8, 11#8, 11#8, 11#8, 15#8, 15#8, 15#8, 15#8, 15#8, 15#8] ∧
    HexAlsw.CHECK_OFFSET = [128#8, 128#8, 128#8, 128#8, 208#8, 191#8, 128#8, 159#8, 128#8, 201#8, 128#8, 128#8, 128#8, 128#8, 128#8, 128#8] ∧
    HexAlsw.DECODE_HASH = [1#8, 1#8, 1#8, 1#8, 1#8, 1#8, 1#8, 11#8, 11#8, 11#8, 15#8, 15#8, 15#8, 15#8, 15#8, 15#8] ∧
    HexAlsw.DECODE_OFFSET = [128#8, 128#8, 128#8, 128#8, 208#8, 201#8, 128#8, 169#8, 128#8, 208#8, 128#8, 128#8, 128#8, 128#8, 128#8, 128#8] := by
  decide +kernel
theorem HexAlsw_good : GoodSpec HexAlsw := by
  obtain ⟨h1, h2, h3, h4⟩ := HexAlsw_tables
  unfold GoodSpec; rw [h1, h2, h3, h4]; decide +kernel

theorem StandardAlsw_tables : StandardAlsw.CHECK_HASH = [9#8, 3#8, 3#8, 3#8, 3#8, 3#8, 3#8, 3#8, 3#8, 3#8, 7#8, 11#8, 15#8, 15#8, 15#8, 11#8] ∧
    StandardAlsw.CHECK_OFFSET = [128#8, 128#8, 128#8, 128#8, 128#8, 207#8, 191#8, 175#8, 213#8, 166#8, 181#8, 134#8, 180#8, 128#8, 148#8, 128#8] ∧
    StandardAlsw.DECODE_HASH = [1#8, 1#8, 1#8, 1#8, 1#8, 1#8, 1#8, 1#8, 1#8, 1#8, 1#8, 13#8, 1#8, 1#8, 1#8, 15#8] ∧
    StandardAlsw.DECODE_OFFSET = [128#8, 128#8, 128#8, 128#8, 4#8, 191#8, 191#8, 185#8, 185#8, 19#8, 16#8, 191#8, 191#8, 185#8, 185#8, 128#8] := by
  decide +kernel
theorem StandardAlsw_good : GoodSpec StandardAlsw := by
  obtain ⟨h1, h2, h3, h4⟩ := StandardAlsw_tables
  unfold GoodSpec; rw [h1, h2, h3, h4]; decide +kernel

theorem UrlSafeAlsw_tables : UrlSafeAlsw.CHECK_HASH = [13#8, 3#8, 3#8, 3#8, 3#8, 3#8, 3#8, 3#8, 3#8, 3#8, 7#8, 11#8, 11#8, 15#8, 11#8, 11#8] ∧
    UrlSafeAlsw.CHECK_OFFSET = [128#8, 128#8, 128#8, 128#8, 128#8, 207#8, 191#8, 175#8, 182#8, 166#8, 211#8, 161#8, 179#8, 128#8, 147#8, 128#8] ∧
    UrlSafeAlsw.DECODE_HASH = [1#8, 1#8, 1#8, 1#8, 1#8, 1#8, 1#8, 1#8, 1#8, 1#8, 1#8, 1#8, 1#8, 1#8, 1#8, 9#8] ∧
    UrlSafeAlsw.DECODE_OFFSET = [128#8, 128#8, 128#8, 17#8, 4#8, 191#8, 191#8, 185#8, 185#8, 191#8, 224#8, 185#8, 128#8, 128#8, 128#8, 128#8] := by
  decide +kernel
theorem UrlSafeAlsw_good : GoodSpec UrlSafeAlsw := by
  obtain ⟨h1, h2, h3, h4⟩ := UrlSafeAlsw_tables
  unfold GoodSpec; rw [h1, h2, h3, h4]; decide +kernel

theorem Base32Alsw_tables : Base32Alsw.CHECK_HASH = [1#8, 1#8, 11#8, 11#8, 11#8, 11#8, 11#8, 11#8, 1#8, 1#8, 1#8, 13#8, 13#8, 13#8, 13#8, 13#8] ∧
    Base32Alsw.CHECK_OFFSET = [128#8, 128#8, 128#8, 128#8, 128#8, 191#8, 176#8, 128#8, 128#8, 206#8, 190#8, 181#8, 128#8, 128#8, 128#8, 128#8] ∧
    Base32Alsw.DECODE_HASH = [1#8, 1#8, 11#8, 11#8, 11#8, 11#8, 11#8, 11#8, 1#8, 1#8, 1#8, 13#8, 13#8, 13#8, 13#8, 13#8] ∧
    Base32Alsw.DECODE_OFFSET = [128#8, 128#8, 128#8, 128#8, 128#8, 191#8, 191#8, 128#8, 128#8, 232#8, 191#8, 191#8, 128#8, 128#8, 128#8, 128#8] := by
  decide +kernel
theorem Base32Alsw_good : GoodSpec Base32Alsw := by
  obtain ⟨h1, h2, h3, h4⟩ := Base32Alsw_tables
  unfold GoodSpec; rw [h1, h2, h3, h4]; decide +kernel

theorem Base32HexAlsw_tables : Base32HexAlsw.CHECK_HASH = [1#8, 1#8, 1#8, 1#8, 1#8, 1#8, 1#8, 13#8, 13#8, 13#8, 3#8, 3#8, 3#8, 3#8, 3#8, 3#8] ∧
    Base32HexAlsw.CHECK_OFFSET = [128#8, 128#8, 128#8, 128#8, 208#8, 191#8, 182#8, 128#8, 128#8, 128#8, 201#8, 185#8, 128#8, 128#8, 128#8, 128#8] ∧
    Base32HexAlsw.DECODE_HASH = [1#8, 1#8, 1#8, 1#8, 1#8, 1#8, 1#8, 13#8, 13#8, 13#8, 3#8, 3#8, 3#8, 3#8, 3#8, 3#8] ∧
    Base32HexAlsw.DECODE_OFFSET = [128#8, 128#8, 128#8, 128#8, 208#8, 201#8, 201#8, 128#8, 128#8, 128#8, 208#8, 201#8, 128#8, 128#8, 128#8, 128#8] := by
  decide +kernel
theorem Base32HexAlsw_good : GoodSpec Base32HexAlsw := by
  obtain ⟨h1, h2, h3, h4⟩ := Base32HexAlsw_tables
  unfold GoodSpec; rw [h1, h2, h3, h4]; decide +kernel

/-! ### Lifting to vectors -/

theorem get16_toNat {n} (x : Vec n) (j) : (x.get16 j).toNat = (x.lane (2 * j)).toNat + 256 * (x.lane (2 * j + 1)).toNat := by
  have := (x.lane (2 * j)).isLt
  rw [Vec.get16, BitVec.toNat_append, ← Nat.shiftLeft_add_eq_or_of_lt this, Nat.shiftLeft_eq]; omega

theorem get32_toNat {n} (x : Vec n) (j) : (x.get32 j).toNat = (x.lane (4 * j)).toNat + 256 * (x.lane (4 * j + 1)).toNat +
    65536 * (x.lane (4 * j + 2)).toNat + 16777216 * (x.lane (4 * j + 3)).toNat := by
  have h0 := (x.lane (4 * j)).isLt
  have h1 := (x.lane (4 * j + 1)).isLt
  have h2 := (x.lane (4 * j + 2)).isLt
  rw [Vec.get32, BitVec.toNat_append, ← Nat.shiftLeft_add_eq_or_of_lt h0, Nat.shiftLeft_eq, BitVec.toNat_append,
    ← Nat.shiftLeft_add_eq_or_of_lt h1, Nat.shiftLeft_eq, BitVec.toNat_append,
    ← Nat.shiftLeft_add_eq_or_of_lt h2, Nat.shiftLeft_eq]; omega

theorem byteOf_toNat {w} (x : BitVec w) (k) : (byteOf x k).toNat = x.toNat / 2 ^ (8 * k) % 256 := by
  simp [byteOf, Nat.shiftRight_eq_div_pow]

theorem shr3_lane {n} (x : Vec n) (i) : ∃ t, t < 8 ∧ (shr32 3 x).lane i = leak (x.lane i) t := by
  have hb : ∀ k, (x.lane k).toNat < 256 := fun k => (x.lane k).isLt
  have h0 := hb (4 * (i / 4)); have h1 := hb (4 * (i / 4) + 1)
  have h2 := hb (4 * (i / 4) + 2); have h3 := hb (4 * (i / 4) + 3)
  have key : ((shr32 3 x).lane i).toNat = ((x.lane (4 * (i / 4))).toNat + 256 * (x.lane (4 * (i / 4) + 1)).toNat +
    65536 * (x.lane (4 * (i / 4) + 2)).toNat + 16777216 * (x.lane (4 * (i / 4) + 3)).toNat) / 8 / 2 ^ (8 * (i % 4)) % 256 := by
    rw [shr32, of32_lane, byteOf_toNat, BitVec.toNat_ushiftRight, get32_toNat, Nat.shiftRight_eq_div_pow]
  have h4 : i % 4 = 0 ∨ i % 4 = 1 ∨ i % 4 = 2 ∨ i % 4 = 3 := by omega
  rcases h4 with h | h | h | h
  · refine ⟨(x.lane (4 * (i / 4) + 1)).toNat % 8, by omega, BitVec.eq_of_toNat_eq ?_⟩
    have hi : x.lane i = x.lane (4 * (i / 4)) := by congr 1; omega
    rw [key, h, leak, hi, BitVec.toNat_ofNat]; omega
  · refine ⟨(x.lane (4 * (i / 4) + 2)).toNat % 8, by omega, BitVec.eq_of_toNat_eq ?_⟩
    have hi : x.lane i = x.lane (4 * (i / 4) + 1) := by congr 1; omega
    rw [key, h, leak, hi, BitVec.toNat_ofNat]; omega
  · refine ⟨(x.lane (4 * (i / 4) + 3)).toNat % 8, by omega, BitVec.eq_of_toNat_eq ?_⟩
    have hi : x.lane i = x.lane (4 * (i / 4) + 2) := by congr 1; omega
    rw [key, h, leak, hi, BitVec.toNat_ofNat]; omega
  · refine ⟨0, by omega, BitVec.eq_of_toNat_eq ?_⟩
    have hi : x.lane i = x.lane (4 * (i / 4) + 3) := by congr 1; omega
    rw [key, h, leak, hi, BitVec.toNat_ofNat]; omega

/-- The vector holds the 16-entry table `L` in each 16-byte half. -/
def Holds {n} (v : Vec n) (L : List Byte) : Prop := ∀ i, i < n → ∀ k, k < 16 → v.lane (i / 16 * 16 + k) = L.getD k 0

theorem holds16 (L) : Holds (.ofList L : V128) L := by
  intro i hi k hk
  rw [Vec.ofList_lane, show i / 16 * 16 + k = k by omega]
theorem holds32 (L) : Holds (Vec.x2 (.ofList L)) L := by
  intro i hi k hk
  rw [x2_ofList_lane _ (by omega), show (i / 16 * 16 + k) % 16 = k by omega]

theorem shuffle_holds {n} {v : Vec n} {L} (h : Holds v L) (x : Vec n) {i} (hi : i < n) :
    (shuffle_epi8 v x).lane i = lk L (x.lane i) := by
  rw [shuffle_lane, lk]
  split
  · rw [h i hi _ (Nat.mod_lt _ (by omega))]
  · rfl

/-- Per-lane meaning of the two vector results. -/
theorem decode_lanes {n} {A : AlswSpec} (hA : GoodSpec A) (check decode : AlswLut n)
    (h1 : Holds check.hash A.CHECK_HASH) (h2 : Holds check.offset A.CHECK_OFFSET)
    (h3 : Holds decode.hash A.DECODE_HASH) (h4 : Holds decode.offset A.DECODE_OFFSET) (x : Vec n) {i} (hi : i < n) :
    ((adds_i8 x (shuffle_epi8 check.offset (avg_u8 (shr32 3 x) (shuffle_epi8 check.hash x)))).lane i).msb
      = (A.decode (x.lane i) == 255#8) ∧
    (A.decode (x.lane i) ≠ 255#8 →
      (add8 x (shuffle_epi8 decode.offset (avg_u8 (shr32 3 x) (shuffle_epi8 decode.hash x)))).lane i = A.decode (x.lane i)) := by
  obtain ⟨t, ht, hsh⟩ := shr3_lane x i
  have hg := hA (x.lane i).toFin ⟨t, ht⟩
  simp only [BitVec.ofFin_toFin] at hg
  simp only [adds_i8, add8, map8_lane]
  rw [shuffle_holds h2 _ hi, shuffle_holds h4 _ hi]
  simp only [avg_u8, map8_lane]
  rw [shuffle_holds h1 _ hi, shuffle_holds h3 _ hi, hsh]
  exact hg

theorem alsw_avgr_eq {n} [Scalable n] [LawfulScalable n] (s : Isa) (a b : Vec n) : alsw_avgr s a b = some (avg_u8 a b) := by
  simp [alsw_avgr]

/-- `decode_ascii_xn` classifies and decodes every lane by its own byte. -/
theorem decode_ascii_xn_spec {n} [Scalable n] [LawfulScalable n] {A : AlswSpec} (hA : GoodSpec A) {check decode : AlswLut n}
    (h1 : Holds check.hash A.CHECK_HASH) (h2 : Holds check.offset A.CHECK_OFFSET)
    (h3 : Holds decode.hash A.DECODE_HASH) (h4 : Holds decode.offset A.DECODE_OFFSET)
    (s : Isa) (hs : s ≠ .sse2) (x : Vec n) :
    ∃ c1 c2, decode_ascii_xn s x check decode = some (c1, c2) ∧
      ∀ i, i < n → (c1.lane i).msb = (A.decode (x.lane i) == 255#8) ∧
        (A.decode (x.lane i) ≠ 255#8 → c2.lane i = A.decode (x.lane i)) := by
  refine ⟨_, _, ?_, fun i hi => decode_lanes hA check decode h1 h2 h3 h4 x hi⟩
  simp [decode_ascii_xn, alsw_avgr_eq, lookup_eq s hs]

/-- `check_ascii_xn` accepts exactly the vectors of alphabet characters. -/
theorem check_ascii_xn_spec {n} [Scalable n] [LawfulScalable n] {A : AlswSpec} (hA : GoodSpec A) {check : AlswLut n}
    (h1 : Holds check.hash A.CHECK_HASH) (h2 : Holds check.offset A.CHECK_OFFSET)
    (s : Isa) (hs : s ≠ .sse2) (x : Vec n) :
    check_ascii_xn s x check = some (allLane n fun i => A.decode (x.lane i) != 255#8) := by
  have h : (anyLane n fun i => ((adds_i8 x (shuffle_epi8 check.offset (avg_u8 (shr32 3 x) (shuffle_epi8 check.hash x)))).lane i).msb)
      = anyLane n fun i => A.decode (x.lane i) == 255#8 := by
    apply anyLane_congr; intro i hi
    obtain ⟨t, ht, hsh⟩ := shr3_lane x i
    have hg := (hA (x.lane i).toFin ⟨t, ht⟩).1
    simp only [BitVec.ofFin_toFin] at hg
    simp only [adds_i8, map8_lane]
    rw [shuffle_holds h2 _ hi]
    simp only [avg_u8, map8_lane]
    rw [shuffle_holds h1 _ hi, hsh]
    exact hg
  simp only [check_ascii_xn, lookup_eq s hs, LawfulScalable.shr32_eq, LawfulScalable.avgr_eq, LawfulScalable.adds_eq,
    LawfulScalable.highbit_eq, Option.bind_eq_bind, Option.bind_some, h]
  rw [any_not_all]; simp [bne]

end Vs
end Simd
