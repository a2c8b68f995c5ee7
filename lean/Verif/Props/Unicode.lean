import Verif.Lemmas.Bswap
import Verif.Spec.Utf8
import Verif.Spec.Setup
/-
unicode-simd: properties C43-C46.

Conventions. `i : Option Isa` is the implementation the dispatcher picked (`none` = scalar fallback), `x64 : Bool` says
whether the crate is compiled for x86-64 with SSE2. The input is buffer 0, `dst` is buffer 1, each being a whole
allocation. A slice of 16- or 32-bit integers is given by the list `ws` of its values and lies in memory as
`wordBytes 2 ws` or `wordBytes 4 ws`. A statement `run … = .ok …` in particular says: no panic, no undefined behaviour.
-/
namespace Simd
namespace Unicode
open Vs

/-! ### C43: is_ascii -/

/-- C43: `is_ascii` returns whether every byte is below 0x80. -/
theorem C43_is_ascii (x64 : Bool) (i : Option Isa) (xs : List Byte) :
    (is_ascii x64 i (whole 0 xs.length)).run (Mem.ofBufs [xs.map some]) = .ok (decide (∀ c ∈ xs, c.toNat < 0x80)) (Mem.ofBufs [xs.map some]) := by
  rw [← asciiOk_spec]
  exact (is_ascii_tests x64 i (p := ⟨0, 0⟩) (hasBytes_ofBufs' rfl) rfl).run

/-- C43: `from_ascii` returns the slice itself exactly for ASCII data, and then the data are well-formed UTF-8, so the unchecked
conversion is sound. -/
theorem C43_from_ascii (x64 : Bool) (i : Option Isa) (xs : List Byte) :
    (from_ascii x64 i (whole 0 xs.length)).run (Mem.ofBufs [xs.map some]) =
      .ok (if ∀ c ∈ xs, c.toNat < 0x80 then some (whole 0 xs.length) else none) (Mem.ofBufs [xs.map some]) ∧
    ((∀ c ∈ xs, c.toNat < 0x80) → Spec.ValidUtf8 xs) := by
  refine ⟨?_, Spec.ValidUtf8.ascii⟩
  unfold from_ascii
  rw [run_bind, C43_is_ascii]
  by_cases h : ∀ c ∈ xs, c.toNat < 0x80
  · rw [if_pos h, decide_eq_true h]; rfl
  · rw [if_neg h, decide_eq_false h]; rfl

example (x64 : Bool) (i : Option Isa) : (is_ascii x64 i (whole 0 40)).run (Mem.ofBufs [(List.replicate 40 0x7f#8).map some]) =
    .ok true (Mem.ofBufs [(List.replicate 40 0x7f#8).map some]) := by
  have := C43_is_ascii x64 i (List.replicate 40 0x7f#8)
  rwa [List.length_replicate, show (decide (∀ c ∈ List.replicate 40 0x7f#8, c.toNat < 0x80)) = true by decide] at this
example (x64 : Bool) (i : Option Isa) : (is_ascii x64 i (whole 0 40)).run (Mem.ofBufs [(List.replicate 39 0x7f#8 ++ [0x80#8]).map some]) =
    .ok false (Mem.ofBufs [(List.replicate 39 0x7f#8 ++ [0x80#8]).map some]) := by
  have := C43_is_ascii x64 i (List.replicate 39 0x7f#8 ++ [0x80#8])
  rwa [show (List.replicate 39 0x7f#8 ++ [0x80#8]).length = 40 from rfl,
    show (decide (∀ c ∈ List.replicate 39 0x7f#8 ++ [0x80#8], c.toNat < 0x80)) = false by decide] at this

/-! ### C44: is_utf32le -/

/-- The implementations that dispatch can select for `is_utf32le` exist. -/
theorem utf32_targets_ok : ∀ s ∈ is_utf32le_targets, (some s : Option Isa) ≠ some .sse2 ∧ (some s : Option Isa) ≠ some .ssse3 := by decide

/-- C44: `is_utf32le` returns whether every element is a Unicode scalar value. -/
theorem C44_is_utf32le {i : Option Isa} (hi : i ≠ some .sse2 ∧ i ≠ some .ssse3) (ws : List (BitVec 32)) :
    (is_utf32le i (whole 0 ws.length)).run (Mem.ofBufs [(Spec.wordBytes 4 ws).map some]) =
      .ok (decide (∀ w ∈ ws, Spec.IsScalar w)) (Mem.ofBufs [(Spec.wordBytes 4 ws).map some]) := by
  rw [← scalarsOk_words]
  exact (is_utf32le_tests hi (p := ⟨0, 0⟩) (hasBytes_ofBufs' rfl) (wordBytes_length 4 ws)).run

/-- Eight words for the vector loop and one for the scalar tail. -/
def sample (w : BitVec 32) : List (BitVec 32) := List.replicate 8 0x10ffff#32 ++ [w]

example : (is_utf32le (some .avx2) (whole 0 (sample 0xd800#32).length)).run (Mem.ofBufs [(Spec.wordBytes 4 (sample 0xd800#32)).map some]) =
    .ok false (Mem.ofBufs [(Spec.wordBytes 4 (sample 0xd800#32)).map some]) := by
  rw [C44_is_utf32le (by decide), decide_eq_false fun h => absurd (h 0xd800#32 (by simp [sample])) (by decide)]
example : (is_utf32le (some .sse41) (whole 0 (sample 0xe000#32).length)).run (Mem.ofBufs [(Spec.wordBytes 4 (sample 0xe000#32)).map some]) =
    .ok true (Mem.ofBufs [(Spec.wordBytes 4 (sample 0xe000#32)).map some]) := by
  rw [C44_is_utf32le (by decide), decide_eq_true]
  intro w hw
  simp only [sample, List.mem_append, List.mem_replicate, List.mem_singleton] at hw
  rcases hw with ⟨-, rfl⟩ | rfl <;> decide

/-! ### C45: endianness swap -/

/-- Where a swap is implemented: everything but SSE2 and SSSE3, and with those only slices that never enter the vector loop. -/
def SwapImpl (t : Elem) (i : Option Isa) (n : Nat) : Prop := (i ≠ some .sse2 ∧ i ≠ some .ssse3) ∨ n < t.lanes

theorem swap_does {t : Elem} {i : Option Isa} {n : Nat} (h : SwapImpl t i n) {m p q xs} (hl : xs.length = t.size * n) (hs : HasBytes m p xs)
    (hw : CanWrite m q (t.size * n)) (hd : Behind p q (t.size * n)) : Does (swap_auto t i p n q) () (swapS t) xs q (t.size * n) m := by
  rcases h with h | h
  · exact swap_auto_does t h hl hs hw hd
  · exact swap_short_does t h hl hs hw hd

theorem swap_run {t : Elem} {i : Option Isa} {n k : Nat} (hi : SwapImpl t i n) {xs : List Byte} (hl : xs.length = t.size * n) (ds : List Cell)
    (hd : ds.length = t.size * k) (hk : n ≤ k) :
    (swap_endianness t i (whole 0 n) (whole 1 k)).run (Mem.ofBufs [xs.map some, ds]) =
      .ok (whole 1 n) (Mem.ofBufs [xs.map some, (swapB t.size xs).map some ++ ds.drop (t.size * n)]) := by
  have hnk : t.size * n ≤ ds.length := by rw [hd]; exact Nat.mul_le_mul_left _ hk
  have hD := (swap_does hi hl (p := ⟨0, 0⟩) (hasBytes_ofBufs' (bufs := [xs.map some, ds]) rfl)
    (q := ⟨1, 0⟩) (by unfold CanWrite; rw [ofBufs_size (l := ds) rfl]; simpa using hnk) (.inl Nat.zero_ne_one))
  have := (hD.copy_ok hnk rfl).2
  unfold swap_endianness
  have ha : decide ((whole 0 n).len ≤ (whole 1 k).len) = true := decide_eq_true hk
  rw [ha]
  show ((swap_auto t i ⟨0, 0⟩ n ⟨1, 0⟩) >>= _).run _ = _
  rw [run_bind, this]; rfl

theorem swap_inplace_run {t : Elem} {i : Option Isa} {n : Nat} (hi : SwapImpl t i n) {xs : List Byte} (hl : xs.length = t.size * n) :
    (swap_endianness_inplace t i (whole 0 n)).run (Mem.ofBufs [xs.map some]) = .ok () (Mem.ofBufs [(swapB t.size xs).map some]) := by
  have hD := (swap_does hi hl (p := ⟨0, 0⟩) (q := ⟨0, 0⟩) (hasBytes_ofBufs' (bufs := [xs.map some]) rfl)
    (by unfold CanWrite; rw [ofBufs_size (l := xs.map some) rfl]; simp [hl]) (.inr (.inl (Nat.le_refl _))))
  have := (hD.inplace_ok (by omega) rfl).2
  rw [List.drop_eq_nil_of_le (by omega), List.append_nil] at this
  exact this

/-- C45: `utf16_swap_endianness` writes every element with its bytes exchanged, in order, returns the written part of `dst` and
leaves the rest of `dst` as it was. -/
theorem C45_utf16 {i : Option Isa} (ws : List (BitVec 16)) (hi : SwapImpl .u16 i ws.length) (ds : List Cell) (k : Nat) (hd : ds.length = 2 * k) (hk : ws.length ≤ k) :
    (swap_endianness .u16 i (whole 0 ws.length) (whole 1 k)).run (Mem.ofBufs [(Spec.wordBytes 2 ws).map some, ds]) =
      .ok (whole 1 ws.length) (Mem.ofBufs [(Spec.wordBytes 2 ws).map some, (Spec.wordBytes 2 (ws.map Spec.swap16)).map some ++ ds.drop (2 * ws.length)]) := by
  have := swap_run hi (wordBytes_length 2 ws) ds hd hk
  rw [show Elem.u16.size = 2 from rfl, swapB_words 2 (by omega) Spec.swap16 swap16_byte] at this
  exact this

/-- C45: `utf32_swap_endianness`. -/
theorem C45_utf32 {i : Option Isa} (ws : List (BitVec 32)) (hi : SwapImpl .u32 i ws.length) (ds : List Cell) (k : Nat) (hd : ds.length = 4 * k) (hk : ws.length ≤ k) :
    (swap_endianness .u32 i (whole 0 ws.length) (whole 1 k)).run (Mem.ofBufs [(Spec.wordBytes 4 ws).map some, ds]) =
      .ok (whole 1 ws.length) (Mem.ofBufs [(Spec.wordBytes 4 ws).map some, (Spec.wordBytes 4 (ws.map Spec.swap32)).map some ++ ds.drop (4 * ws.length)]) := by
  have := swap_run hi (wordBytes_length 4 ws) ds hd hk
  rw [show Elem.u32.size = 4 from rfl, swapB_words 4 (by omega) Spec.swap32 swap32_byte] at this
  exact this

/-- C45: `utf16_swap_endianness_inplace`. -/
theorem C45_utf16_inplace {i : Option Isa} (ws : List (BitVec 16)) (hi : SwapImpl .u16 i ws.length) :
    (swap_endianness_inplace .u16 i (whole 0 ws.length)).run (Mem.ofBufs [(Spec.wordBytes 2 ws).map some]) =
      .ok () (Mem.ofBufs [(Spec.wordBytes 2 (ws.map Spec.swap16)).map some]) := by
  have := swap_inplace_run hi (wordBytes_length 2 ws)
  rw [show Elem.u16.size = 2 from rfl, swapB_words 2 (by omega) Spec.swap16 swap16_byte] at this
  exact this

/-- C45: `utf32_swap_endianness_inplace`. -/
theorem C45_utf32_inplace {i : Option Isa} (ws : List (BitVec 32)) (hi : SwapImpl .u32 i ws.length) :
    (swap_endianness_inplace .u32 i (whole 0 ws.length)).run (Mem.ofBufs [(Spec.wordBytes 4 ws).map some]) =
      .ok () (Mem.ofBufs [(Spec.wordBytes 4 (ws.map Spec.swap32)).map some]) := by
  have := swap_inplace_run hi (wordBytes_length 4 ws)
  rw [show Elem.u32.size = 4 from rfl, swapB_words 4 (by omega) Spec.swap32 swap32_byte] at this
  exact this

/-- C45: swapping twice, with whatever implementations, restores the data. -/
theorem C45_involution16 {i j : Option Isa} (ws : List (BitVec 16)) (hi : SwapImpl .u16 i ws.length) (hj : SwapImpl .u16 j ws.length) :
    (do swap_endianness_inplace .u16 i (whole 0 ws.length); swap_endianness_inplace .u16 j (whole 0 ws.length)).run (Mem.ofBufs [(Spec.wordBytes 2 ws).map some]) =
      .ok () (Mem.ofBufs [(Spec.wordBytes 2 ws).map some]) := by
  rw [run_bind, C45_utf16_inplace ws hi]
  have := C45_utf16_inplace (ws.map Spec.swap16) (by rwa [List.length_map] : SwapImpl .u16 j _)
  rw [List.length_map, List.map_map, show Spec.swap16 ∘ Spec.swap16 = id from funext swap16_swap16, List.map_id] at this
  exact this

/-- C45: swapping twice, with whatever implementations, restores the data. -/
theorem C45_involution32 {i j : Option Isa} (ws : List (BitVec 32)) (hi : SwapImpl .u32 i ws.length) (hj : SwapImpl .u32 j ws.length) :
    (do swap_endianness_inplace .u32 i (whole 0 ws.length); swap_endianness_inplace .u32 j (whole 0 ws.length)).run (Mem.ofBufs [(Spec.wordBytes 4 ws).map some]) =
      .ok () (Mem.ofBufs [(Spec.wordBytes 4 ws).map some]) := by
  rw [run_bind, C45_utf32_inplace ws hi]
  have := C45_utf32_inplace (ws.map Spec.swap32) (by rwa [List.length_map] : SwapImpl .u32 j _)
  rw [List.length_map, List.map_map, show Spec.swap32 ∘ Spec.swap32 = id from funext swap32_swap32, List.map_id] at this
  exact this

/-- C45: a `dst` shorter than `src` is rejected by the documented panic before anything is written. -/
theorem C45_short_dst (t : Elem) (i : Option Isa) (src dst : Slice) (m : Mem) (h : dst.len < src.len) : (swap_endianness t i src dst).run m = .panic := by
  unfold swap_endianness
  rw [show decide (src.len ≤ dst.len) = false from decide_eq_false (by omega)]
  rfl

example : Spec.swap16 0x1234#16 = 0x3412#16 ∧ Spec.swap32 0x12345678#32 = 0x78563412#32 ∧ Spec.wordBytes 2 [0x1234#16, 0xabcd#16] = [0x34#8, 0x12#8, 0xcd#8, 0xab#8] := by decide
example : SwapImpl .u16 (some .avx2) 100 ∧ SwapImpl .u32 none 100 ∧ SwapImpl .u16 (some .ssse3) 15 ∧ ¬ SwapImpl .u16 (some .ssse3) 16 := by
  unfold SwapImpl; decide
example : (swap_endianness .u16 (some .avx2) (whole 0 2) (whole 1 3)).run (Mem.ofBufs [(Spec.wordBytes 2 [0x1234#16, 0xabcd#16]).map some, [none, none, none, none, none, some 7#8]]) =
    .ok (whole 1 2) (Mem.ofBufs [(Spec.wordBytes 2 [0x1234#16, 0xabcd#16]).map some, [some 0x12#8, some 0x34#8, some 0xab#8, some 0xcd#8, none, some 7#8]]) := by
  exact C45_utf16 [0x1234#16, 0xabcd#16] (.inl (by decide)) _ 3 rfl (by decide)

/-! ### C46: the swaps and the SSSE3 target -/

/-- C46, violation: with the SSSE3 instruction set, which `utf16_swap_endianness` and `utf32_swap_endianness` list as a target,
every slice of at least 16 (u16) or 8 (u32) elements makes the functions panic, whatever the data and the destination. -/
theorem C46_panics (t : Elem) (n : Nat) (xs : List Byte) (hl : xs.length = t.size * n) (hn : t.lanes ≤ n) (ds : List Cell) (k : Nat) :
    (some .ssse3 : Option Isa) ∈ swap_targets.map some ∧
    (swap_endianness_inplace t (some .ssse3) (whole 0 n)).run (Mem.ofBufs [xs.map some]) = .panic ∧
    (swap_endianness t (some .ssse3) (whole 0 n) (whole 1 k)).run (Mem.ofBufs [xs.map some, ds]) = .panic := by
  refine ⟨by decide, ?_, ?_⟩
  · exact swap_panics t (.inr rfl) hn hl (hasBytes_ofBufs' rfl)
  · unfold swap_endianness
    by_cases h : n ≤ k
    · rw [show decide ((whole 0 n).len ≤ (whole 1 k).len) = true from decide_eq_true h]
      show ((swap_auto t (some .ssse3) ⟨0, 0⟩ n ⟨1, 0⟩) >>= _).run _ = _
      rw [run_bind, swap_panics t (.inr rfl) hn hl (hasBytes_ofBufs' rfl)]
    · rw [show decide ((whole 0 n).len ≤ (whole 1 k).len) = false from decide_eq_false h]
      rfl

/-- C46, violation: not every target of the dispatch list returns normally on every slice. -/
theorem C46_violated : ¬ ∀ (t : Elem) (i : Option Isa), i = none ∨ i ∈ swap_targets.map some → ∀ (n : Nat) (xs : List Byte), xs.length = t.size * n →
    ((swap_endianness_inplace t i (whole 0 n)).run (Mem.ofBufs [xs.map some])).Safe := by
  intro h
  have := h .u16 (some .ssse3) (.inr (by decide)) 16 (List.replicate 32 0) rfl
  rw [(C46_panics .u16 16 (List.replicate 32 0) rfl (by decide) [] 0).2.1] at this
  exact this

/-- C46, the part that holds: the fallback and every target but SSSE3 return normally on every slice, and SSSE3 does on slices of
fewer than 16 (u16) or 8 (u32) elements. Missing: SSSE3 on longer slices, where the claim is false. -/
theorem C46_returns_partial (t : Elem) (i : Option Isa) (hi : i = none ∨ i ∈ swap_targets.map some) (n : Nat) (h : i ≠ some .ssse3 ∨ n < t.lanes)
    (xs : List Byte) (hl : xs.length = t.size * n) (ds : List Cell) (k : Nat) (hd : ds.length = t.size * k) (hk : n ≤ k) :
    ((swap_endianness_inplace t i (whole 0 n)).run (Mem.ofBufs [xs.map some])).Safe ∧
    ((swap_endianness t i (whole 0 n) (whole 1 k)).run (Mem.ofBufs [xs.map some, ds])).Safe := by
  have hs : SwapImpl t i n := by
    rcases h with h | h
    · refine .inl ⟨?_, h⟩
      rintro rfl
      rcases hi with hi | hi
      · cases hi
      · revert hi; decide
    · exact .inr h
  rw [swap_inplace_run hs hl, swap_run hs hl ds hd hk]
  exact ⟨trivial, trivial⟩

example : (swap_endianness_inplace .u32 (some .ssse3) (whole 0 8)).run (Mem.ofBufs [(List.replicate 32 1#8).map some]) = .panic :=
  (C46_panics .u32 8 (List.replicate 32 1#8) rfl (by decide) [] 0).2.1

end Unicode
end Simd
