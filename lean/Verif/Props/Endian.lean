import Verif.Lemmas.Endian
import Verif.Props.Base64
import Verif.Props.Base32
import Verif.Props.Unicode
/-
C68: the scalar code does not depend on the byte order of the target. C69: which words `is_utf32le` accepts for each byte order.
-/
namespace Simd

namespace Base32

/-- C68: scalar base32 encoding for both byte orders. -/
theorem C68_encode (e : ByteOrder) (P : Plat) (w : Bool) {config hex pad} (hv : IsVariant config hex pad)
    (xs : List Byte) (ds : List Cell) (hx : xs.length ≤ P.isizeMax) (h : (Spec.base32 hex pad xs).length ≤ ds.length) :
    (encode_ne e P w config (whole 0 xs.length) (whole 1 ds.length)).run (Mem.ofBufs [xs.map some, ds]) =
      .ok (whole 1 (Spec.base32 hex pad xs).length)
        (Mem.ofBufs [xs.map some, (Spec.base32 hex pad xs).map some ++ ds.drop (Spec.base32 hex pad xs).length]) := by
  rw [(encode_ne_eqv ..).run]
  exact C19_encode P w impl_none hv xs ds hx h

/-- C68: in every memory, valid or not, scalar base32 encoding does the same for both byte orders. -/
theorem C68_encode_same (e e' : ByteOrder) (P : Plat) (w : Bool) (config : Config) (src dst : Slice) (m : Mem) :
    (encode_ne e P w config src dst).run m = (encode_ne e' P w config src dst).run m := by
  rw [(encode_ne_eqv e ..).run, (encode_ne_eqv e' ..).run]

example : IsVariant BASE32 false true ∧ (Spec.base32 false true [0xff, 1, 2, 3, 4, 5, 6, 7]).length ≤ (List.replicate 16 (none : Cell)).length :=
  ⟨.inl ⟨rfl, rfl, rfl⟩, by decide +kernel⟩

/-- C68: scalar base32 decoding for both byte orders, success. -/
theorem C68_decode_ok (e : ByteOrder) (w : Bool) {config hex pad} (hv : IsVariant config hex pad) (ys : List Byte) (ds : List Cell)
    (h : ys.length ≤ ds.length) :
    let xs := Spec.base32 hex pad ys
    (decode_ne e w config (whole 0 xs.length) (whole 1 ds.length)).run (Mem.ofBufs [xs.map some, ds]) =
      .ok (whole 1 ys.length) (Mem.ofBufs [xs.map some, ys.map some ++ ds.drop ys.length]) := by
  intro xs
  rw [decode_ne_eq]
  exact C23_decode_ok w impl_none hv ys ds h

/-- C68: scalar base32 decoding for both byte orders, failure. -/
theorem C68_decode_err (e : ByteOrder) (w : Bool) {config hex pad} (hv : IsVariant config hex pad) (xs : List Byte) (ds : List Cell)
    (h : ¬ ∃ ys, Spec.base32 hex pad ys = xs) :
    ∃ ds', (decode_ne e w config (whole 0 xs.length) (whole 1 ds.length)).run (Mem.ofBufs [xs.map some, ds]) = .err (Mem.ofBufs [xs.map some, ds']) := by
  rw [decode_ne_eq]
  obtain ⟨ds', h', _⟩ := C23_decode_err w impl_none hv xs ds (.inl h)
  exact ⟨ds', h'⟩

/-- C68: scalar in-place base32 decoding for both byte orders, success. -/
theorem C68_inplace_ok (e : ByteOrder) (w : Bool) {config hex pad} (hv : IsVariant config hex pad) (ys : List Byte) :
    let xs := Spec.base32 hex pad ys
    (decode_inplace_ne e w config (whole 0 xs.length)).run (Mem.ofBufs [xs.map some]) =
      .ok (whole 0 ys.length) (Mem.ofBufs [(ys ++ xs.drop ys.length).map some]) := by
  intro xs
  rw [decode_inplace_ne_eq]
  exact C24_inplace_ok w impl_none hv ys

/-- C68: scalar in-place base32 decoding for both byte orders, failure. -/
theorem C68_inplace_err (e : ByteOrder) (w : Bool) {config hex pad} (hv : IsVariant config hex pad) (xs : List Byte)
    (h : ¬ ∃ ys, Spec.base32 hex pad ys = xs) :
    ∃ xs' : List Byte, (decode_inplace_ne e w config (whole 0 xs.length)).run (Mem.ofBufs [xs.map some]) = .err (Mem.ofBufs [xs'.map some]) := by
  rw [decode_inplace_ne_eq]
  obtain ⟨xs', h', _⟩ := C24_inplace_err w impl_none hv xs h
  exact ⟨xs', h'⟩

example : IsVariant BASE32HEX_NO_PAD true false ∧ (decode_ne .big false BASE32HEX_NO_PAD (whole 0 8) (whole 1 5)).run
      (Mem.ofBufs [(Spec.base32 true false [1, 2, 3, 4, 0xff]).map some, List.replicate 5 none]) =
    .ok (whole 1 5) (Mem.ofBufs [(Spec.base32 true false [1, 2, 3, 4, 0xff]).map some, [1, 2, 3, 4, 0xff].map some]) := by
  have hv : IsVariant BASE32HEX_NO_PAD true false := by simp [IsVariant]
  exact ⟨hv, C68_decode_ok .big false hv [1, 2, 3, 4, 0xff] (List.replicate 5 none) (by decide)⟩

end Base32

namespace Base64

/-- C68: scalar base64 decoding for both byte orders, success. -/
theorem C68_decode_ok (e : ByteOrder) {config url pad} (hv : IsVariant config url pad) (ys : List Byte) (ds : List Cell) (h : ys.length ≤ ds.length) :
    let xs := Spec.base64 url pad ys
    (decode_ne e config (whole 0 xs.length) (whole 1 ds.length)).run (Mem.ofBufs [xs.map some, ds]) =
      .ok (whole 1 ys.length) (Mem.ofBufs [xs.map some, ys.map some ++ ds.drop ys.length]) := by
  intro xs
  rw [decode_ne_eq]
  exact C05_decode_ok (by simp) hv ys ds h

/-- C68: scalar base64 decoding for both byte orders, failure. -/
theorem C68_decode_err (e : ByteOrder) {config url pad} (hv : IsVariant config url pad) (xs : List Byte) (ds : List Cell)
    (h : ¬ ∃ ys, Spec.base64 url pad ys = xs) :
    ∃ ds', (decode_ne e config (whole 0 xs.length) (whole 1 ds.length)).run (Mem.ofBufs [xs.map some, ds]) = .err (Mem.ofBufs [xs.map some, ds']) := by
  rw [decode_ne_eq]
  obtain ⟨ds', h', _⟩ := C05_decode_err (i := none) (by simp) hv xs ds (.inl h)
  exact ⟨ds', h'⟩

/-- C68: scalar in-place base64 decoding for both byte orders, success. -/
theorem C68_inplace_ok (e : ByteOrder) {config url pad} (hv : IsVariant config url pad) (ys : List Byte) :
    let xs := Spec.base64 url pad ys
    (decode_inplace_ne e config (whole 0 xs.length)).run (Mem.ofBufs [xs.map some]) =
      .ok (whole 0 ys.length) (Mem.ofBufs [(ys ++ xs.drop ys.length).map some]) := by
  intro xs
  rw [decode_inplace_ne_eq]
  exact C06_inplace_ok (by simp) hv ys

/-- C68: scalar in-place base64 decoding for both byte orders, failure. -/
theorem C68_inplace_err (e : ByteOrder) {config url pad} (hv : IsVariant config url pad) (xs : List Byte) (h : ¬ ∃ ys, Spec.base64 url pad ys = xs) :
    ∃ xs' : List Byte, (decode_inplace_ne e config (whole 0 xs.length)).run (Mem.ofBufs [xs.map some]) = .err (Mem.ofBufs [xs'.map some]) := by
  rw [decode_inplace_ne_eq]
  obtain ⟨xs', h', _⟩ := C06_inplace_err (i := none) (by simp) hv xs h
  exact ⟨xs', h'⟩

example : IsVariant URL_SAFE_NO_PAD true false ∧ ¬ ∃ ys, Spec.base64 true false ys = List.replicate 11 0x2b :=
  have hv : IsVariant URL_SAFE_NO_PAD true false := by simp [IsVariant]
  ⟨hv, (hv.full_none _).1 (by decide +kernel)⟩

end Base64

namespace Unicode

/-- C68: `utf16_swap_endianness` for both byte orders: `dst` gets the swapped words. -/
theorem C68_utf16 (e : ByteOrder) (ws : List (BitVec 16)) (ds : List Cell) (k : Nat) (hd : ds.length = 2 * k) (hk : ws.length ≤ k) :
    (swap_endianness_ne e .u16 (whole 0 ws.length) (whole 1 k)).run (Mem.ofBufs [(Spec.memBytes e 2 ws).map some, ds]) =
      .ok (whole 1 ws.length)
        (Mem.ofBufs [(Spec.memBytes e 2 ws).map some, (Spec.memBytes e 2 (ws.map Spec.swap16)).map some ++ ds.drop (2 * ws.length)]) := by
  rw [(swap_ne_eqv ..).run]
  cases e with
  | little => exact C45_utf16 (i := none) ws (.inl (by simp)) ds k hd hk
  | big =>
    rw [memBytes_swap 2 Spec.swap16 swap16_byte, memBytes_swap 2 Spec.swap16 swap16_byte]
    have := C45_utf16 (i := none) (ws.map Spec.swap16) (.inl (by simp)) ds k hd (by simpa)
    rw [List.length_map] at this
    exact this

/-- C68: `utf32_swap_endianness` for both byte orders: `dst` gets the swapped words. -/
theorem C68_utf32 (e : ByteOrder) (ws : List (BitVec 32)) (ds : List Cell) (k : Nat) (hd : ds.length = 4 * k) (hk : ws.length ≤ k) :
    (swap_endianness_ne e .u32 (whole 0 ws.length) (whole 1 k)).run (Mem.ofBufs [(Spec.memBytes e 4 ws).map some, ds]) =
      .ok (whole 1 ws.length)
        (Mem.ofBufs [(Spec.memBytes e 4 ws).map some, (Spec.memBytes e 4 (ws.map Spec.swap32)).map some ++ ds.drop (4 * ws.length)]) := by
  rw [(swap_ne_eqv ..).run]
  cases e with
  | little => exact C45_utf32 (i := none) ws (.inl (by simp)) ds k hd hk
  | big =>
    rw [memBytes_swap 4 Spec.swap32 swap32_byte, memBytes_swap 4 Spec.swap32 swap32_byte]
    have := C45_utf32 (i := none) (ws.map Spec.swap32) (.inl (by simp)) ds k hd (by simpa)
    rw [List.length_map] at this
    exact this

/-- C68: `utf16_swap_endianness_inplace` for both byte orders. -/
theorem C68_utf16_inplace (e : ByteOrder) (ws : List (BitVec 16)) :
    (swap_endianness_inplace_ne e .u16 (whole 0 ws.length)).run (Mem.ofBufs [(Spec.memBytes e 2 ws).map some]) =
      .ok () (Mem.ofBufs [(Spec.memBytes e 2 (ws.map Spec.swap16)).map some]) := by
  rw [(swap_inplace_ne_eqv ..).run]
  cases e with
  | little => exact C45_utf16_inplace (i := none) ws (.inl (by simp))
  | big =>
    rw [memBytes_swap 2 Spec.swap16 swap16_byte, memBytes_swap 2 Spec.swap16 swap16_byte]
    have := C45_utf16_inplace (i := none) (ws.map Spec.swap16) (.inl (by simp))
    rw [List.length_map] at this
    exact this

/-- C68: `utf32_swap_endianness_inplace` for both byte orders. -/
theorem C68_utf32_inplace (e : ByteOrder) (ws : List (BitVec 32)) :
    (swap_endianness_inplace_ne e .u32 (whole 0 ws.length)).run (Mem.ofBufs [(Spec.memBytes e 4 ws).map some]) =
      .ok () (Mem.ofBufs [(Spec.memBytes e 4 (ws.map Spec.swap32)).map some]) := by
  rw [(swap_inplace_ne_eqv ..).run]
  cases e with
  | little => exact C45_utf32_inplace (i := none) ws (.inl (by simp))
  | big =>
    rw [memBytes_swap 4 Spec.swap32 swap32_byte, memBytes_swap 4 Spec.swap32 swap32_byte]
    have := C45_utf32_inplace (i := none) (ws.map Spec.swap32) (.inl (by simp))
    rw [List.length_map] at this
    exact this

example : Spec.memBytes .big 4 [0x11223344#32] = [0x11, 0x22, 0x33, 0x44] ∧ Spec.memBytes .big 4 [Spec.swap32 0x11223344#32] = [0x44, 0x33, 0x22, 0x11] ∧
    (swap_endianness_inplace_ne .big .u32 (whole 0 1)).run (Mem.ofBufs [(Spec.memBytes .big 4 [0x11223344#32]).map some]) =
      .ok () (Mem.ofBufs [(Spec.memBytes .big 4 [Spec.swap32 0x11223344#32]).map some]) :=
  ⟨by decide, by decide, C68_utf32_inplace .big [0x11223344#32]⟩

/-- C69: on every target `is_utf32le` tests the values of the `u32` elements. -/
theorem C69_values (e : ByteOrder) (ws : List (BitVec 32)) :
    (is_utf32le_ne e (whole 0 ws.length)).run (Mem.ofBufs [(Spec.memBytes e 4 ws).map some]) =
      .ok (decide (∀ w ∈ ws, Spec.IsScalar w)) (Mem.ofBufs [(Spec.memBytes e 4 ws).map some]) :=
  (utf32_ne_tests e (p := ⟨0, 0⟩) (hasBytes_ofBufs' rfl)).run

/-- C69: as a test of bytes, it accepts UTF-32LE on little-endian targets. -/
theorem C69_little (ws : List (BitVec 32)) :
    (is_utf32le_ne .little (whole 0 ws.length)).run (Mem.ofBufs [(Spec.wordBytes 4 ws).map some]) =
      .ok (decide (∀ w ∈ ws, Spec.IsScalar w)) (Mem.ofBufs [(Spec.wordBytes 4 ws).map some]) := C69_values .little ws

/-- C69: as a test of bytes, it accepts UTF-32BE on big-endian targets: for bytes in UTF-32LE order the byte-swapped words are tested. -/
theorem C69_big (ws : List (BitVec 32)) :
    (is_utf32le_ne .big (whole 0 ws.length)).run (Mem.ofBufs [(Spec.wordBytes 4 ws).map some]) =
      .ok (decide (∀ w ∈ ws, Spec.IsScalar (Spec.swap32 w))) (Mem.ofBufs [(Spec.wordBytes 4 ws).map some]) := by
  have hs : ∀ x, Spec.swap32 (Spec.swap32 x) = x := swap32_swap32
  have := C69_values .big (ws.map Spec.swap32)
  rw [memBytes_swap 4 Spec.swap32 swap32_byte, List.map_map, show Spec.swap32 ∘ Spec.swap32 = id from funext hs, List.map_id, List.length_map,
    show Spec.memBytes .little 4 ws = Spec.wordBytes 4 ws from rfl] at this
  simpa using this

/-- C69: so on a big-endian target the UTF-32LE encoding of "A" is rejected, and one of a word that is no scalar value is accepted. -/
theorem C69_big_differs :
    Spec.IsScalar 0x41#32 ∧ ¬ Spec.IsScalar 0x41000000#32 ∧
    (is_utf32le_ne .big (whole 0 1)).run (Mem.ofBufs [(Spec.wordBytes 4 [0x41#32]).map some]) =
      .ok false (Mem.ofBufs [(Spec.wordBytes 4 [0x41#32]).map some]) ∧
    (is_utf32le_ne .big (whole 0 1)).run (Mem.ofBufs [(Spec.wordBytes 4 [0x41000000#32]).map some]) =
      .ok true (Mem.ofBufs [(Spec.wordBytes 4 [0x41000000#32]).map some]) := by
  have h1 := C69_big [0x41#32]
  have h2 := C69_big [0x41000000#32]
  refine ⟨by decide, by decide, h1.trans ?_, h2.trans ?_⟩
  · rw [decide_eq_false (by simp [Spec.IsScalar, Spec.swap32])]
  · rw [decide_eq_true (by simp [Spec.IsScalar, Spec.swap32])]

end Unicode
end Simd
