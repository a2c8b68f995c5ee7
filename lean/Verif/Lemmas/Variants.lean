import Verif.Spec.Variants
import Verif.Spec.Uuid
import Verif.Lemmas.ForgivingSpec
/-
Relations between the specified texts of the variants.
-/
namespace Simd
open Spec

theorem natOfBits_lt_pow (l : List Bool) : natOfBits l < 2 ^ l.length := by
  suffices h : ∀ a, l.foldl (fun a b => 2 * a + b.toNat) a < (a + 1) * 2 ^ l.length by simpa [natOfBits] using h 0
  induction l with
  | nil => simp
  | cons b l ih =>
    intro a
    have hb := Bool.toNat_le b
    calc _ < (2 * a + b.toNat + 1) * 2 ^ l.length := ih _
      _ ≤ (2 * (a + 1)) * 2 ^ l.length := Nat.mul_le_mul_right _ (by omega)
      _ = _ := by rw [List.length_cons, Nat.pow_succ', Nat.mul_comm 2, Nat.mul_assoc]

theorem group_lt_pow (k bits j) : group k bits j < 2 ^ k := by
  have := natOfBits_lt_pow ((List.range k).map fun i => bits.getD (k * j + i) false)
  simpa [group] using this

theorem mem_baseText {k ch bs c} (h : c ∈ baseText k ch bs) : ∃ v, v < 2 ^ k ∧ c = ch v := by
  simp only [baseText, List.mem_map] at h
  obtain ⟨j, -, rfl⟩ := h
  exact ⟨_, group_lt_pow .., rfl⟩

theorem baseText_map {k : Nat} {ch ch' : Nat → Byte} {f : Byte → Byte} (h : ∀ v, v < 2 ^ k → ch' v = f (ch v)) (bs) :
    baseText k ch' bs = (baseText k ch bs).map f := by
  simp only [baseText, List.map_map]
  exact List.map_congr_left fun j _ => h _ (group_lt_pow ..)

theorem noPad_padTo {q : Nat} {t : List Byte} (h : ∀ c ∈ t, c ≠ 0x3d#8) : noPad (padTo q t) = t := by
  unfold noPad padTo
  rw [List.filter_append, List.filter_eq_self.2 (fun c hc => by simpa using h c hc), List.filter_eq_nil_iff.2 (fun c hc => by
    rw [List.eq_of_mem_replicate hc]; decide), List.append_nil]

theorem padTo_map {q : Nat} {f : Byte → Byte} (hf : f 0x3d#8 = 0x3d#8) (t : List Byte) : padTo q (t.map f) = (padTo q t).map f := by
  simp [padTo, hf]

theorem base64Char_facts : ∀ v, v < 64 → (∀ url, base64Char url v ≠ 0x3d#8) ∧ base64Char true v = toUrlSafe (base64Char false v) ∧
    ∀ url, isWs (base64Char url v) = false := by decide +kernel
theorem base32Char_facts : ∀ v, v < 32 → (∀ hex, base32Char hex v ≠ 0x3d#8) ∧ base32Char true v = toBase32Hex (base32Char false v) := by decide +kernel

theorem base64_noPad (url xs) : base64 url false xs = noPad (base64 url true xs) := by
  show baseText .. = noPad (padTo 4 (baseText ..))
  rw [noPad_padTo]
  intro c hc
  obtain ⟨v, hv, rfl⟩ := mem_baseText hc
  exact (base64Char_facts v hv).1 url

theorem base64_url (pad xs) : base64 true pad xs = (base64 false pad xs).map toUrlSafe := by
  have h : baseText 6 (base64Char true) xs = (baseText 6 (base64Char false) xs).map toUrlSafe :=
    baseText_map (fun v hv => (base64Char_facts v hv).2.1) xs
  cases pad
  · exact h
  · show padTo .. = (padTo ..).map _
    rw [h, padTo_map (by decide)]

theorem base32_noPad (hex xs) : base32 hex false xs = noPad (base32 hex true xs) := by
  show baseText .. = noPad (padTo 8 (baseText ..))
  rw [noPad_padTo]
  intro c hc
  obtain ⟨v, hv, rfl⟩ := mem_baseText hc
  exact (base32Char_facts v hv).1 hex

theorem base32_hex (pad xs) : base32 true pad xs = (base32 false pad xs).map toBase32Hex := by
  have h : baseText 5 (base32Char true) xs = (baseText 5 (base32Char false) xs).map toBase32Hex :=
    baseText_map (fun v hv => (base32Char_facts v hv).2) xs
  cases pad
  · exact h
  · show padTo .. = (padTo ..).map _
    rw [h, padTo_map (by decide)]

theorem hexDigit_facts : ∀ n, n < 16 → hexDigit true n = toUpper (hexDigit false n) ∧ hexDigit false n = toLower (hexDigit true n) ∧
    ∀ u, hexDigit u n ≠ 0x2d#8 := by decide +kernel

theorem hexEncode_upper (xs) : hexEncode true xs = (hexEncode false xs).map toUpper := by
  simp only [hexEncode, List.map_flatMap]
  congr 1; funext b
  have := b.isLt
  simp [(hexDigit_facts (b.toNat / 16) (by omega)).1, (hexDigit_facts (b.toNat % 16) (by omega)).1]

theorem hexEncode_lower (xs) : hexEncode false xs = (hexEncode true xs).map toLower := by
  simp only [hexEncode, List.map_flatMap]
  congr 1; funext b
  have := b.isLt
  simp [(hexDigit_facts (b.toNat / 16) (by omega)).2.1, (hexDigit_facts (b.toNat % 16) (by omega)).2.1]

theorem noHyphens_hex (u xs) : noHyphens (hexEncode u xs) = hexEncode u xs := by
  refine List.filter_eq_self.2 fun c hc => ?_
  simp only [hexEncode, List.mem_flatMap] at hc
  obtain ⟨b, -, hc⟩ := hc
  have := b.isLt
  simp only [List.mem_cons, List.not_mem_nil, or_false] at hc
  rcases hc with rfl | rfl
  · simpa using (hexDigit_facts (b.toNat / 16) (by omega)).2.2 u
  · simpa using (hexDigit_facts (b.toNat % 16) (by omega)).2.2 u

theorem noHyphens_append (s t) : noHyphens (s ++ t) = noHyphens s ++ noHyphens t := List.filter_append ..

theorem uuid_noHyphens (up u) : noHyphens (uuidHyphenated up u) = uuidSimple up u := by
  have hh : noHyphens [0x2d#8] = [] := by decide
  simp only [uuidHyphenated, noHyphens_append, noHyphens_hex, hh, List.append_nil, uuidSimple]
  simp only [hexEncode, ← List.flatMap_append]
  congr 1
  have e1 : u.drop 4 = (u.drop 4).take 2 ++ u.drop 6 := by rw [show u.drop 6 = (u.drop 4).drop 2 by simp, List.take_append_drop]
  have e2 : u.drop 6 = (u.drop 6).take 2 ++ u.drop 8 := by rw [show u.drop 8 = (u.drop 6).drop 2 by simp, List.take_append_drop]
  have e3 : u.drop 8 = (u.drop 8).take 2 ++ u.drop 10 := by rw [show u.drop 10 = (u.drop 8).drop 2 by simp, List.take_append_drop]
  simp only [List.append_assoc]
  rw [← e3, ← e2, ← e1, List.take_append_drop]

/-! ### forgiving decoding -/
open Base64

theorem stripWs_eq_self {t : List Byte} (h : ∀ c ∈ t, isWs c = false) : stripWs t = t := List.filter_eq_self.2 fun c hc => by simp [h c hc]

theorem mem_base64 {url pad xs c} (h : c ∈ base64 url pad xs) : c = 0x3d#8 ∨ ∃ v, v < 64 ∧ c = base64Char url v := by
  cases pad with
  | false => exact .inr (mem_baseText h)
  | true =>
    rcases List.mem_append.1 h with h | h
    · exact .inr (mem_baseText h)
    · exact .inl (List.eq_of_mem_replicate h)

theorem stripPad_noEq {t : List Byte} (h : ∀ c ∈ t, c ≠ 0x3d#8) : stripPad t = t := by
  unfold stripPad
  split
  · rw [if_neg, if_neg]
    · rintro ⟨s, rfl⟩; exact h 0x3d#8 (by simp) rfl
    · rintro ⟨s, rfl⟩; exact h 0x3d#8 (by simp) rfl
  · rfl

theorem forgiving_noPad (ys) : decodeBits (base64 false false ys) = some ys := by
  rw [← decodeBits_eq, base64_eq]
  rw [show base64Char false = base64Char (isUrl .standard) from rfl, ← enc64_congr (chr_spec .standard) false ys]
  exact dec_of_enc (inverse .standard) true ys

/-- Padding a text without `=` whose length leaves no remainder of 1 is undone by the removal of padding. -/
theorem stripPad_padTo {t : List Byte} (h : ∀ c ∈ t, c ≠ 0x3d#8) (h1 : t.length % 4 ≠ 1) : stripPad (padTo 4 t) = t := by
  have h4 := Nat.mod_lt t.length (show 0 < 4 by omega)
  by_cases h0 : t.length % 4 = 0
  · rw [padTo, h0]
    simp only [Nat.sub_zero, Nat.mod_self, List.replicate_zero, List.append_nil]
    exact stripPad_noEq h
  by_cases h2 : t.length % 4 = 2
  · rw [padTo, h2]
    show stripPad (t ++ [0x3d#8, 0x3d#8]) = t
    unfold stripPad
    rw [if_pos (by simp; omega), if_pos (List.suffix_append ..)]
    simp
  · have h3 : t.length % 4 = 3 := by omega
    rw [padTo, h3]
    show stripPad (t ++ [0x3d#8]) = t
    unfold stripPad
    rw [if_pos (by simp; omega), if_neg, if_pos (List.suffix_append ..)]
    · simp
    · rintro ⟨s, hs⟩
      have : s ++ [0x3d#8] = t := List.append_cancel_right (as := s ++ [0x3d#8]) (bs := [0x3d#8]) (by simpa using hs)
      exact h 0x3d#8 (by rw [← this]; simp) rfl

/-- Strict base64 text decodes to the same bytes under the forgiving rules. -/
theorem forgiving_strict (pad ys) : forgivingDecode (base64 false pad ys) = some ys := by
  unfold forgivingDecode
  have hne : ∀ c ∈ baseText 6 (base64Char false) ys, c ≠ 0x3d#8 := by
    intro c hc
    obtain ⟨v, hv, rfl⟩ := mem_baseText hc
    exact (base64Char_facts v hv).1 _
  rw [stripWs_eq_self]
  · have hs : stripPad (base64 false pad ys) = baseText 6 (base64Char false) ys := by
      cases pad with
      | false => exact stripPad_noEq hne
      | true => exact stripPad_padTo hne (by simp only [baseText, List.length_map, List.length_range]; omega)
    rw [hs]
    exact forgiving_noPad ys
  · intro c hc
    rcases mem_base64 hc with rfl | ⟨v, hv, rfl⟩
    · decide
    · exact (base64Char_facts v hv).2.2 _

theorem mem_stripPad {t : List Byte} {c : Byte} (h : c ∈ t) (hc : c ≠ 0x3d#8) : c ∈ stripPad t := by
  unfold stripPad
  split
  · split
    · rename_i hs
      obtain ⟨s, rfl⟩ := hs
      simp only [List.mem_append, List.mem_cons, List.not_mem_nil, or_false, or_self] at h
      simpa using h.resolve_right hc
    · split
      · rename_i hs
        obtain ⟨s, rfl⟩ := hs
        simp only [List.mem_append, List.mem_cons, List.not_mem_nil, or_false] at h
        simpa using h.resolve_right hc
      · exact h
  · exact h

theorem mapM_none {f : Byte → Option Nat} {c : Byte} (hf : f c = none) : ∀ {t : List Byte}, c ∈ t → t.mapM f = none
  | x :: t, h => by
    rw [List.mapM_cons]
    rcases List.mem_cons.1 h with rfl | h
    · rw [hf]; rfl
    · rw [mapM_none hf h]
      cases f x <;> rfl

theorem forgiving_reject {xs : List Byte} {c : Byte} (hc : c ∈ xs) (hw : isWs c = false) (he : c ≠ 0x3d#8)
    (ha : ∀ v, v < 64 → base64Char false v ≠ c) : forgivingDecode xs = none := by
  have h1 : c ∈ stripWs xs := List.mem_filter.2 ⟨hc, by simp [hw]⟩
  have h2 := mem_stripPad h1 he
  unfold forgivingDecode decodeBits
  split
  · rfl
  · rw [mapM_none _ h2]; · rfl
    unfold base64Value
    rw [List.find?_eq_none]
    intro v hv
    simpa using ha v (by simpa using hv)

end Simd
