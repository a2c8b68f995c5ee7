import Verif.Props.Uuid
import Verif.Props.Unicode
import Verif.Lemmas.RawApi
/-
C60: the functions of uuid-simd and unicode-simd on slices and arrays anywhere in any memory. They may be parts of larger
allocations, and source and destination may be disjoint parts of the same allocation. The cells next to them are arbitrary, in
particular uninitialised, so a call that reads one cell outside its source is undefined behaviour for some memory.
-/
namespace Simd

/-- A nonempty destination apart from the source. -/
theorem Spec.NoOverlap.apart' {p q : Ptr} {a b : Nat} (h : Spec.NoOverlap p a q b) (ha : 0 < a) (hb : 0 < b) : Apart p q a b := by
  rcases h.apart with h | h | h
  · omega
  · omega
  · exact h

namespace Uuid

/-- From the outcome of a parser to its English reading. -/
theorem parser_any {x : Prog Slice} {q : Ptr} {spec : List Byte → Option (List Byte)} {xs : List Byte} {m : Mem} {P : List Byte → Prop}
    (h : Does x ⟨q, 16⟩ spec xs q 16 m) (hs : ∀ u, spec xs = some u ↔ P u) :
    (∀ u, P u → ∃ m', x.run m = .ok ⟨q, 16⟩ m' ∧ Spec.Wrote m m' q u) ∧
    ((¬ ∃ u, P u) → ∃ m', x.run m = .err m' ∧ Spec.OnlyChanged m m' q 16) :=
  ⟨fun u hu => h.raw_ok ((hs u).2 hu), fun hn => h.raw_err (spec_none hs hn)⟩

theorem apart_text {p q : Ptr} {xs : List Byte} (h : Spec.NoOverlap p xs.length q 16) : xs = [] ∨ Apart p q xs.length 16 := by
  cases xs with
  | nil => exact .inl rfl
  | cons x xs => exact .inr (h.apart' (by simp) (by omega))

/-- C60, `parse`: on a form of `u` the bytes of `u` are written and nothing else changes; on any other text it is an error and at most
the destination has changed. -/
theorem C60_parse (si : Option Isa) {hi : Option Isa} (hh : HypImpl hi) (m : Mem) (p q : Ptr) (xs : List Byte) (hr : Spec.Reads m p xs)
    (hw : Spec.Writable m q 16) (hd : Spec.NoOverlap p xs.length q 16) :
    (∀ u, Spec.IsUuid xs u → ∃ m', (parse si hi ⟨p, xs.length⟩ q).run m = .ok ⟨q, 16⟩ m' ∧ Spec.Wrote m m' q u) ∧
    ((¬ ∃ u, Spec.IsUuid xs u) → ∃ m', (parse si hi ⟨p, xs.length⟩ q).run m = .err m' ∧ Spec.OnlyChanged m m' q 16) := by
  refine parser_any ?_ (parseS_iff xs)
  rcases apart_text hd with rfl | ha
  · exact Does.reject rfl
  · exact parse_does si hh hr.has hw ha

/-- C60, `parse_simple`. -/
theorem C60_parse_simple (i : Option Isa) (m : Mem) (p q : Ptr) (xs : List Byte) (hr : Spec.Reads m p xs)
    (hw : Spec.Writable m q 16) (hd : Spec.NoOverlap p xs.length q 16) :
    (∀ u, Spec.IsUuidSimple xs u → ∃ m', (parse_simple i ⟨p, xs.length⟩ q).run m = .ok ⟨q, 16⟩ m' ∧ Spec.Wrote m m' q u) ∧
    ((¬ ∃ u, Spec.IsUuidSimple xs u) → ∃ m', (parse_simple i ⟨p, xs.length⟩ q).run m = .err m' ∧ Spec.OnlyChanged m m' q 16) := by
  refine parser_any ?_ (simpleS_iff xs)
  rcases apart_text hd with rfl | ha
  · exact Does.reject rfl
  · exact parse_simple_does i hr.has hw ha

/-- C60, `parse_hyphenated`. -/
theorem C60_parse_hyphenated {i : Option Isa} (hi : HypImpl i) (m : Mem) (p q : Ptr) (xs : List Byte) (hr : Spec.Reads m p xs)
    (hw : Spec.Writable m q 16) (hd : Spec.NoOverlap p xs.length q 16) :
    (∀ u, Spec.IsUuidHyphenated xs u → ∃ m', (parse_hyphenated i ⟨p, xs.length⟩ q).run m = .ok ⟨q, 16⟩ m' ∧ Spec.Wrote m m' q u) ∧
    ((¬ ∃ u, Spec.IsUuidHyphenated xs u) → ∃ m', (parse_hyphenated i ⟨p, xs.length⟩ q).run m = .err m' ∧ Spec.OnlyChanged m m' q 16) := by
  refine parser_any ?_ (hyphenatedS_iff xs)
  rcases apart_text hd with rfl | ha
  · exact Does.reject rfl
  · exact parse_hyphenated_does hi hr.has hw ha

/-- C60, `format_simple`: the 32 characters are written, nothing else changes. -/
theorem C60_format_simple (i : Option Isa) (case : AsciiCase) (m : Mem) (p q : Ptr) (u : List Byte) (hu : u.length = 16)
    (hr : Spec.Reads m p u) (hw : Spec.Writable m q 32) (hd : Spec.NoOverlap p 16 q 32) :
    ∃ m', (format_simple i p q case).run m = .ok ⟨q, 32⟩ m' ∧ Spec.Wrote m m' q (Spec.uuidSimple (case == .upper) u) := by
  rw [Spec.uuidSimple, ← Hex.hexEnc_spec]
  exact (format_simple_does i case hr.has hu hw (by rw [hu]; exact hd.apart' (by omega) (by omega))).raw_ok rfl

/-- C60, `format_hyphenated`: the 36 characters are written, nothing else changes. -/
theorem C60_format_hyphenated {i : Option Isa} (hi : HypImpl i) (case : AsciiCase) (m : Mem) (p q : Ptr) (u : List Byte) (hu : u.length = 16)
    (hr : Spec.Reads m p u) (hw : Spec.Writable m q 36) (hd : Spec.NoOverlap p 16 q 36) :
    ∃ m', (format_hyphenated i p q case).run m = .ok ⟨q, 36⟩ m' ∧ Spec.Wrote m m' q (Spec.uuidHyphenated (case == .upper) u) := by
  rw [← hyph_enc case hu]
  exact (format_hyphenated_does hi case hr.has hu hw (by rw [hu]; exact hd.apart' (by omega) (by omega))).raw_ok rfl

end Uuid

namespace Unicode

/-- C60, `is_ascii`: nothing changes, the answer depends on the slice alone. -/
theorem C60_is_ascii (x64 : Bool) (i : Option Isa) (m : Mem) (p : Ptr) (xs : List Byte) (hr : Spec.Reads m p xs) :
    (is_ascii x64 i ⟨p, xs.length⟩).run m = .ok (decide (∀ c ∈ xs, c.toNat < 0x80)) m := by
  rw [← asciiOk_spec]
  exact (is_ascii_tests x64 i hr.has rfl).run

/-- C60, `from_ascii`. -/
theorem C60_from_ascii (x64 : Bool) (i : Option Isa) (m : Mem) (p : Ptr) (xs : List Byte) (hr : Spec.Reads m p xs) :
    (from_ascii x64 i ⟨p, xs.length⟩).run m = .ok (if ∀ c ∈ xs, c.toNat < 0x80 then some ⟨p, xs.length⟩ else none) m := by
  unfold from_ascii
  rw [run_bind, C60_is_ascii x64 i m p xs hr]
  by_cases h : ∀ c ∈ xs, c.toNat < 0x80
  · rw [if_pos h, decide_eq_true h]; rfl
  · rw [if_neg h, decide_eq_false h]; rfl

/-- C60, `is_utf32le`. -/
theorem C60_is_utf32le {i : Option Isa} (hi : i ≠ some .sse2 ∧ i ≠ some .ssse3) (m : Mem) (p : Ptr) (ws : List (BitVec 32))
    (hr : Spec.Reads m p (Spec.wordBytes 4 ws)) : (is_utf32le i ⟨p, ws.length⟩).run m = .ok (decide (∀ w ∈ ws, Spec.IsScalar w)) m := by
  rw [← scalarsOk_words]
  exact (is_utf32le_tests hi hr.has (wordBytes_length 4 ws)).run

theorem swap_any {t : Elem} {i : Option Isa} {n k : Nat} (hi : SwapImpl t i n) {xs : List Byte} (hl : xs.length = t.size * n) {m : Mem} {p q : Ptr}
    (hr : Spec.Reads m p xs) (hw : Spec.Writable m q (t.size * k)) (hd : Spec.NoOverlap p (t.size * n) q (t.size * k)) (hk : n ≤ k) :
    ∃ m', (swap_endianness t i ⟨p, n⟩ ⟨q, k⟩).run m = .ok ⟨q, n⟩ m' ∧ Spec.Wrote m m' q (swapB t.size xs) := by
  have hnk : t.size * n ≤ t.size * k := Nat.mul_le_mul_left _ hk
  have hb : Behind p q (t.size * n) := (hd.mono (Nat.le_refl _) hnk).behind (by omega)
  unfold Spec.Writable at hw
  have h1 := (swap_does hi hl hr.has (by unfold CanWrite; omega) hb).ret (f := fun _ => (⟨q, n⟩ : Slice))
  unfold swap_endianness
  have ha : decide ((⟨p, n⟩ : Slice).len ≤ (⟨q, k⟩ : Slice).len) = true := decide_eq_true hk
  rw [ha]
  exact h1.raw_ok rfl

theorem swap_inplace_any {t : Elem} {i : Option Isa} {n : Nat} (hi : SwapImpl t i n) {xs : List Byte} (hl : xs.length = t.size * n) {m : Mem} {p : Ptr}
    (hr : Spec.Reads m p xs) : ∃ m', (swap_endianness_inplace t i ⟨p, n⟩).run m = .ok () m' ∧ Spec.Wrote m m' p (swapB t.size xs) := by
  have hb := hr.has.bound
  exact (swap_does hi hl hr.has (by unfold CanWrite; omega) (.inr (.inl (Nat.le_refl _)))).raw_ok rfl

/-- C60, `utf16_swap_endianness`. -/
theorem C60_utf16 {i : Option Isa} (m : Mem) (p q : Ptr) (ws : List (BitVec 16)) (k : Nat) (hi : SwapImpl .u16 i ws.length)
    (hr : Spec.Reads m p (Spec.wordBytes 2 ws)) (hw : Spec.Writable m q (2 * k)) (hd : Spec.NoOverlap p (2 * ws.length) q (2 * k)) (hk : ws.length ≤ k) :
    ∃ m', (swap_endianness .u16 i ⟨p, ws.length⟩ ⟨q, k⟩).run m = .ok ⟨q, ws.length⟩ m' ∧ Spec.Wrote m m' q (Spec.wordBytes 2 (ws.map Spec.swap16)) := by
  have := swap_any hi (wordBytes_length 2 ws) hr hw hd hk
  rw [show Elem.u16.size = 2 from rfl, swapB_words 2 (by omega) Spec.swap16 swap16_byte] at this
  exact this

/-- C60, `utf32_swap_endianness`. -/
theorem C60_utf32 {i : Option Isa} (m : Mem) (p q : Ptr) (ws : List (BitVec 32)) (k : Nat) (hi : SwapImpl .u32 i ws.length)
    (hr : Spec.Reads m p (Spec.wordBytes 4 ws)) (hw : Spec.Writable m q (4 * k)) (hd : Spec.NoOverlap p (4 * ws.length) q (4 * k)) (hk : ws.length ≤ k) :
    ∃ m', (swap_endianness .u32 i ⟨p, ws.length⟩ ⟨q, k⟩).run m = .ok ⟨q, ws.length⟩ m' ∧ Spec.Wrote m m' q (Spec.wordBytes 4 (ws.map Spec.swap32)) := by
  have := swap_any hi (wordBytes_length 4 ws) hr hw hd hk
  rw [show Elem.u32.size = 4 from rfl, swapB_words 4 (by omega) Spec.swap32 swap32_byte] at this
  exact this

/-- C60, `utf16_swap_endianness_inplace`. -/
theorem C60_utf16_inplace {i : Option Isa} (m : Mem) (p : Ptr) (ws : List (BitVec 16)) (hi : SwapImpl .u16 i ws.length)
    (hr : Spec.Reads m p (Spec.wordBytes 2 ws)) :
    ∃ m', (swap_endianness_inplace .u16 i ⟨p, ws.length⟩).run m = .ok () m' ∧ Spec.Wrote m m' p (Spec.wordBytes 2 (ws.map Spec.swap16)) := by
  have := swap_inplace_any hi (wordBytes_length 2 ws) hr
  rw [show Elem.u16.size = 2 from rfl, swapB_words 2 (by omega) Spec.swap16 swap16_byte] at this
  exact this

/-- C60, `utf32_swap_endianness_inplace`. -/
theorem C60_utf32_inplace {i : Option Isa} (m : Mem) (p : Ptr) (ws : List (BitVec 32)) (hi : SwapImpl .u32 i ws.length)
    (hr : Spec.Reads m p (Spec.wordBytes 4 ws)) :
    ∃ m', (swap_endianness_inplace .u32 i ⟨p, ws.length⟩).run m = .ok () m' ∧ Spec.Wrote m m' p (Spec.wordBytes 4 (ws.map Spec.swap32)) := by
  have := swap_inplace_any hi (wordBytes_length 4 ws) hr
  rw [show Elem.u32.size = 4 from rfl, swapB_words 4 (by omega) Spec.swap32 swap32_byte] at this
  exact this

end Unicode

/-- One allocation of 64 bytes: the hyphenated sample at offset 3, a 16-byte destination right behind it at offset 39; the rest is uninitialised. -/
def uuidMem : Mem := Mem.ofBufs [List.replicate 3 none ++ Uuid.sampleText.map some ++ List.replicate 25 none]

example : Spec.Reads uuidMem ⟨0, 3⟩ Uuid.sampleText ∧ Spec.Writable uuidMem ⟨0, 39⟩ 16 ∧ Spec.NoOverlap ⟨0, 3⟩ Uuid.sampleText.length ⟨0, 39⟩ 16 ∧
    Spec.IsUuid Uuid.sampleText Uuid.sample := by
  refine ⟨⟨by decide, ?_⟩, by unfold Spec.Writable; decide, ?_, .inr (.inl (by unfold Spec.IsUuidHyphenated; decide +kernel))⟩
  · decide +kernel
  · have : Uuid.sampleText.length = 36 := by decide
    intro i j hi hj
    dsimp only
    omega

end Simd
