import Verif.Props.Anywhere
import Verif.Props.AnywhereText
import Verif.Lemmas.FootprintHex
import Verif.Lemmas.FootprintBase
import Verif.Lemmas.FootprintUnicode
/-
The bytes accessed when source and destination are in different allocations.
-/
namespace Simd

namespace Base64

/-- Different allocations: `encode` of base64-simd: loads are inside the source, stores inside the part of the destination that is returned; if the
destination is too short, nothing is stored. -/
theorem apart_encode (P : Plat) {i : Option Isa} (hi : i ≠ some .sse2) {config url pad} (hv : IsVariant config url pad)
    (m : Mem) (p q : Ptr) (hpq : p.buf ≠ q.buf) (xs : List Byte) (d : Nat) (hr : Spec.Reads m p xs) (hw : Spec.Writable m q d)
    (hx : xs.length ≤ P.isizeMax) :
    Spec.Confined ((encode P i config ⟨p, xs.length⟩ ⟨q, d⟩).trace m) p xs.length q
      (if (Spec.base64 url pad xs).length ≤ d then (Spec.base64 url pad xs).length else 0) := by
  split
  · rename_i h
    exact conf_wrote hpq (uses_encode (L := (· = p.buf)) (W := (· = q.buf)) (src := ⟨p, xs.length⟩) (dst := ⟨q, d⟩) rfl rfl P i config)
      (C59_encode P hi hv _ p q xs d (Mem.keep_reads hr) hw (noOverlap_of_ne hpq _ _) hx h) rfl
  · rename_i h
    exact conf_same hpq (uses_encode (L := (· = p.buf)) (W := (· = q.buf)) (src := ⟨p, xs.length⟩) (dst := ⟨q, d⟩) rfl rfl P i config)
      (C59_encode_short P hi hv _ p q xs d hx (by omega))

/-- Different allocations: `decode` of base64-simd on the encoding of `ys`: stores are inside the first `ys.length` bytes. -/
theorem apart_decode {i : Option Isa} (hi : i ≠ some .sse2) {config url pad} (hv : IsVariant config url pad)
    (m : Mem) (p q : Ptr) (hpq : p.buf ≠ q.buf) (ys : List Byte) (d : Nat) (hr : Spec.Reads m p (Spec.base64 url pad ys)) (hw : Spec.Writable m q d) :
    Spec.Confined ((decode i config ⟨p, (Spec.base64 url pad ys).length⟩ ⟨q, d⟩).trace m) p (Spec.base64 url pad ys).length q
      (if ys.length ≤ d then ys.length else 0) := by
  have h := C59_decode hi hv _ p q ys d (Mem.keep_reads hr) hw (noOverlap_of_ne hpq _ _)
  split
  · rename_i hd
    exact conf_wrote hpq (uses_decode (L := (· = p.buf)) (W := (· = q.buf)) (src := ⟨p, _⟩) (dst := ⟨q, d⟩) rfl rfl i config) (h.1 hd) rfl
  · exact conf_same hpq (uses_decode (L := (· = p.buf)) (W := (· = q.buf)) (src := ⟨p, _⟩) (dst := ⟨q, d⟩) rfl rfl i config) (h.2 (by omega))

/-- Different allocations: `decode` of base64-simd on any other text: stores are inside the destination. -/
theorem apart_decode_err {i : Option Isa} (hi : i ≠ some .sse2) {config url pad} (hv : IsVariant config url pad)
    (m : Mem) (p q : Ptr) (hpq : p.buf ≠ q.buf) (xs : List Byte) (d : Nat) (hr : Spec.Reads m p xs) (hw : Spec.Writable m q d)
    (h : ¬ ∃ ys, Spec.base64 url pad ys = xs) :
    Spec.Confined ((decode i config ⟨p, xs.length⟩ ⟨q, d⟩).trace m) p xs.length q d :=
  conf_only hpq (uses_decode (L := (· = p.buf)) (W := (· = q.buf)) (src := ⟨p, _⟩) (dst := ⟨q, d⟩) rfl rfl i config)
    (C59_decode_err hi hv _ p q xs d (Mem.keep_reads hr) hw (noOverlap_of_ne hpq _ _) h)

/-- Different allocations: `forgiving_decode`: the destination is also read, but only where the same call has written. -/
theorem apart_forgiving (fi : Option Isa) {di : Option Isa} (hi : di ≠ some .sse2) (m : Mem) (p q : Ptr) (hpq : p.buf ≠ q.buf) (xs : List Byte) (d : Nat)
    (hr : Spec.Reads m p xs) (hw : Spec.Writable m q d) (hl : xs.length ≤ d) :
    Spec.Staged ((forgiving_decode fi di ⟨p, xs.length⟩ ⟨q, d⟩).trace m) p xs.length q xs.length := by
  have h := C59_forgiving fi hi _ p q xs d (Mem.keep_reads hr) hw hl (noOverlap_of_ne hpq _ _)
  have hu := uses_forgiving (L := fun b => b = p.buf ∨ b = q.buf) (W := (· = q.buf)) (src := ⟨p, xs.length⟩) (dst := ⟨q, d⟩)
    (.inl rfl) (.inr rfl) rfl fi di
  cases hy : Spec.forgivingDecode xs with
  | some ys =>
    obtain ⟨m', h1, -, h2⟩ := h.1 ys hy
    exact staged hpq hu (.inl ⟨_, h1⟩) h2.2.2.2
  | none =>
    obtain ⟨m', h1, h2⟩ := h.2 hy
    exact staged hpq hu (.inr h1) h2.2.2.2

end Base64

namespace Base32

/-- Different allocations: `encode` of base32-simd. -/
theorem apart_encode (P : Plat) (w : Bool) {i : Option Isa} (hi : Impl i) {config hex pad} (hv : IsVariant config hex pad)
    (m : Mem) (p q : Ptr) (hpq : p.buf ≠ q.buf) (xs : List Byte) (d : Nat) (hr : Spec.Reads m p xs) (hw : Spec.Writable m q d)
    (hx : xs.length ≤ P.isizeMax) :
    Spec.Confined ((encode P w i config ⟨p, xs.length⟩ ⟨q, d⟩).trace m) p xs.length q
      (if (Spec.base32 hex pad xs).length ≤ d then (Spec.base32 hex pad xs).length else 0) := by
  split
  · rename_i h
    exact conf_wrote hpq (uses_encode (L := (· = p.buf)) (W := (· = q.buf)) (src := ⟨p, xs.length⟩) (dst := ⟨q, d⟩) rfl rfl P w i config)
      (C59_encode P w hi hv _ p q xs d (Mem.keep_reads hr) hw (noOverlap_of_ne hpq _ _) hx h) rfl
  · rename_i h
    exact conf_same hpq (uses_encode (L := (· = p.buf)) (W := (· = q.buf)) (src := ⟨p, xs.length⟩) (dst := ⟨q, d⟩) rfl rfl P w i config)
      (C59_encode_short P w hi hv _ p q xs d hx (by omega))

/-- Different allocations: `decode` of base32-simd on the encoding of `ys`. -/
theorem apart_decode (w : Bool) {i : Option Isa} (hi : Impl i) {config hex pad} (hv : IsVariant config hex pad)
    (m : Mem) (p q : Ptr) (hpq : p.buf ≠ q.buf) (ys : List Byte) (d : Nat) (hr : Spec.Reads m p (Spec.base32 hex pad ys)) (hw : Spec.Writable m q d) :
    Spec.Confined ((decode w i config ⟨p, (Spec.base32 hex pad ys).length⟩ ⟨q, d⟩).trace m) p (Spec.base32 hex pad ys).length q
      (if ys.length ≤ d then ys.length else 0) := by
  have h := C59_decode w hi hv _ p q ys d (Mem.keep_reads hr) hw (noOverlap_of_ne hpq _ _)
  split
  · rename_i hd
    exact conf_wrote hpq (uses_decode (L := (· = p.buf)) (W := (· = q.buf)) (src := ⟨p, _⟩) (dst := ⟨q, d⟩) rfl rfl w i config) (h.1 hd) rfl
  · exact conf_same hpq (uses_decode (L := (· = p.buf)) (W := (· = q.buf)) (src := ⟨p, _⟩) (dst := ⟨q, d⟩) rfl rfl w i config) (h.2 (by omega))

/-- Different allocations: `decode` of base32-simd on any other text. -/
theorem apart_decode_err (w : Bool) {i : Option Isa} (hi : Impl i) {config hex pad} (hv : IsVariant config hex pad)
    (m : Mem) (p q : Ptr) (hpq : p.buf ≠ q.buf) (xs : List Byte) (d : Nat) (hr : Spec.Reads m p xs) (hw : Spec.Writable m q d)
    (h : ¬ ∃ ys, Spec.base32 hex pad ys = xs) :
    Spec.Confined ((decode w i config ⟨p, xs.length⟩ ⟨q, d⟩).trace m) p xs.length q d :=
  conf_only hpq (uses_decode (L := (· = p.buf)) (W := (· = q.buf)) (src := ⟨p, _⟩) (dst := ⟨q, d⟩) rfl rfl w i config)
    (C59_decode_err w hi hv _ p q xs d (Mem.keep_reads hr) hw (noOverlap_of_ne hpq _ _) h)

end Base32

namespace Hex

/-- Different allocations: `encode` of hex-simd. -/
theorem apart_encode (P : Plat) (i : Option Isa) (case : AsciiCase) (m : Mem) (p q : Ptr) (hpq : p.buf ≠ q.buf) (xs : List Byte) (d : Nat)
    (hr : Spec.Reads m p xs) (hw : Spec.Writable m q d) (hsz : d ≤ P.usizeMax) :
    Spec.Confined ((encode P i ⟨p, xs.length⟩ ⟨q, d⟩ case).trace m) p xs.length q (if 2 * xs.length ≤ d then 2 * xs.length else 0) := by
  have h := C59_encode P i case _ p q xs d (Mem.keep_reads hr) hw hsz (noOverlap_of_ne hpq _ _)
  split
  · rename_i hd
    refine conf_wrote hpq (uses_encode (L := (· = p.buf)) (W := (· = q.buf)) (src := ⟨p, _⟩) (dst := ⟨q, d⟩) rfl rfl P i case) (h.1 hd) (hexEncode_length _ _)
  · exact conf_same hpq (uses_encode (L := (· = p.buf)) (W := (· = q.buf)) (src := ⟨p, _⟩) (dst := ⟨q, d⟩) rfl rfl P i case) (h.2 (by omega))

/-- Different allocations: `decode` of hex-simd: stores are inside the first `xs.length / 2` bytes, also when the text is rejected. -/
theorem apart_decode (i : Option Isa) (m : Mem) (p q : Ptr) (hpq : p.buf ≠ q.buf) (xs : List Byte) (d : Nat) (hr : Spec.Reads m p xs)
    (hw : Spec.Writable m q d) : Spec.Confined ((decode i ⟨p, xs.length⟩ ⟨q, d⟩).trace m) p xs.length q (if xs.length / 2 ≤ d then xs.length / 2 else 0) := by
  have h := C59_decode i _ p q xs d (Mem.keep_reads hr) hw (noOverlap_of_ne hpq _ _)
  have hu := uses_decode (L := (· = p.buf)) (W := (· = q.buf)) (src := ⟨p, xs.length⟩) (dst := ⟨q, d⟩) rfl rfl i
  split
  · rename_i hd
    by_cases hy : ∃ ys, Spec.IsHexOf xs ys
    · obtain ⟨ys, hy⟩ := hy
      have hl := isHexOf_length hy
      exact conf_wrote hpq hu (h.1 ys hy (by omega)) (by omega)
    · exact conf_only hpq hu (h.2.2 hy)
  · refine conf_same hpq hu ?_
    unfold decode
    exact run_ensure_false (by simp; omega)

/-- Different allocations: `encode_raw` of hex-simd. -/
theorem apart_encode_raw (P : Plat) (i : Option Isa) (case : AsciiCase) (m : Mem) (p q : Ptr) (hpq : p.buf ≠ q.buf) (xs : List Byte)
    (hr : Spec.Reads m p xs) (hw : Spec.Writable m q (2 * xs.length)) (hsz : 2 * xs.length ≤ P.usizeMax) :
    Spec.Confined ((encode_raw P i p xs.length q case).trace m) p xs.length q (2 * xs.length) := by
  refine conf_wrote hpq (uses_encode_raw (L := (· = p.buf)) (W := (· = q.buf)) rfl rfl P i _ case)
    (C58_encode_raw P i case _ p q xs (Mem.keep_reads hr) hw hsz (noOverlap_of_ne hpq _ _)) (hexEncode_length _ _)

/-- Different allocations: `decode_raw` of hex-simd. -/
theorem apart_decode_raw (i : Option Isa) (m : Mem) (p q : Ptr) (hpq : p.buf ≠ q.buf) (xs : List Byte)
    (hr : Spec.Reads m p xs) (hw : Spec.Writable m q (xs.length / 2)) :
    Spec.Confined ((decode_raw i p xs.length q).trace m) p xs.length q (xs.length / 2) := by
  have hu := uses_decode_raw (L := (· = p.buf)) (W := (· = q.buf)) (p := p) (q := q) rfl rfl i xs.length
  by_cases hy : ∃ ys, Spec.IsHexOf xs ys
  · obtain ⟨ys, hy⟩ := hy
    have hl := isHexOf_length hy
    exact conf_wrote hpq hu (C58_decode_raw_ok i _ p q xs ys (Mem.keep_reads hr) hw (.inl (noOverlap_of_ne hpq _ _)) hy) (by omega)
  · exact conf_only hpq hu (C58_decode_raw_err i _ p q xs (Mem.keep_reads hr) hw (.inl (noOverlap_of_ne hpq _ _)) hy)

end Hex

namespace Uuid

theorem conf_parse {x : Prog Slice} {m : Mem} {p q : Ptr} {n : Nat} {P : List Byte → Prop} (hpq : p.buf ≠ q.buf) (hs : Uses' (· = p.buf) (· = q.buf) x)
    (hl : ∀ u, P u → u.length = 16)
    (h : (∀ u, P u → ∃ m', x.run (m.keep p n) = .ok ⟨q, 16⟩ m' ∧ Spec.Wrote (m.keep p n) m' q u) ∧
      ((¬ ∃ u, P u) → ∃ m', x.run (m.keep p n) = .err m' ∧ Spec.OnlyChanged (m.keep p n) m' q 16)) :
    Spec.Confined (x.trace m) p n q 16 := by
  by_cases hy : ∃ u, P u
  · obtain ⟨u, hu⟩ := hy
    exact conf_wrote hpq hs (h.1 u hu) (hl u hu)
  · exact conf_only hpq hs (h.2 hy)

/-- Different allocations: `parse` of uuid-simd: loads are inside the text, stores inside the 16 bytes of the destination. -/
theorem apart_parse (si : Option Isa) {hi : Option Isa} (hh : HypImpl hi) (m : Mem) (p q : Ptr) (hpq : p.buf ≠ q.buf) (xs : List Byte)
    (hr : Spec.Reads m p xs) (hw : Spec.Writable m q 16) : Spec.Confined ((parse si hi ⟨p, xs.length⟩ q).trace m) p xs.length q 16 :=
  conf_parse hpq (uses_parse (L := (· = p.buf)) (W := (· = q.buf)) (src := ⟨p, _⟩) rfl rfl si hi) (fun u h => by rcases h with h | h | ⟨t, -, h⟩ | ⟨t, -, h⟩ <;> exact h.1)
    (C60_parse si hh _ p q xs (Mem.keep_reads hr) hw (noOverlap_of_ne hpq _ _))

/-- Different allocations: `parse_simple`. -/
theorem apart_parse_simple (i : Option Isa) (m : Mem) (p q : Ptr) (hpq : p.buf ≠ q.buf) (xs : List Byte)
    (hr : Spec.Reads m p xs) (hw : Spec.Writable m q 16) : Spec.Confined ((parse_simple i ⟨p, xs.length⟩ q).trace m) p xs.length q 16 :=
  conf_parse hpq (uses_parse_simple (L := (· = p.buf)) (W := (· = q.buf)) (src := ⟨p, _⟩) rfl rfl i) (fun _ h => h.1)
    (C60_parse_simple i _ p q xs (Mem.keep_reads hr) hw (noOverlap_of_ne hpq _ _))

/-- Different allocations: `parse_hyphenated`. -/
theorem apart_parse_hyphenated {i : Option Isa} (hi : HypImpl i) (m : Mem) (p q : Ptr) (hpq : p.buf ≠ q.buf) (xs : List Byte)
    (hr : Spec.Reads m p xs) (hw : Spec.Writable m q 16) : Spec.Confined ((parse_hyphenated i ⟨p, xs.length⟩ q).trace m) p xs.length q 16 :=
  conf_parse hpq (uses_parse_hyphenated (L := (· = p.buf)) (W := (· = q.buf)) (src := ⟨p, _⟩) rfl rfl i) (fun _ h => h.1)
    (C60_parse_hyphenated hi _ p q xs (Mem.keep_reads hr) hw (noOverlap_of_ne hpq _ _))

/-- Different allocations: `format_simple`: loads are inside the 16 bytes of the UUID, stores inside the 32 bytes of the destination. -/
theorem apart_format_simple (i : Option Isa) (case : AsciiCase) (m : Mem) (p q : Ptr) (hpq : p.buf ≠ q.buf) (u : List Byte) (hu : u.length = 16)
    (hr : Spec.Reads m p u) (hw : Spec.Writable m q 32) : Spec.Confined ((format_simple i p q case).trace m) p 16 q 32 := by
  have hr' := Mem.keep_reads hr
  rw [hu] at hr'
  exact conf_wrote hpq (uses_format_simple (L := (· = p.buf)) (W := (· = q.buf)) rfl rfl i case) (C60_format_simple i case _ p q u hu hr' hw (noOverlap_of_ne hpq _ _))
    (by rw [Spec.uuidSimple, Hex.hexEncode_length, hu])

/-- Different allocations: `format_hyphenated`. -/
theorem apart_format_hyphenated {i : Option Isa} (hi : HypImpl i) (case : AsciiCase) (m : Mem) (p q : Ptr) (hpq : p.buf ≠ q.buf) (u : List Byte)
    (hu : u.length = 16) (hr : Spec.Reads m p u) (hw : Spec.Writable m q 36) : Spec.Confined ((format_hyphenated i p q case).trace m) p 16 q 36 := by
  have hr' := Mem.keep_reads hr
  rw [hu] at hr'
  exact conf_wrote hpq (uses_format_hyphenated (L := (· = p.buf)) (W := (· = q.buf)) rfl rfl i case) (C60_format_hyphenated hi case _ p q u hu hr' hw (noOverlap_of_ne hpq _ _))
    (by simp only [Spec.uuidHyphenated, List.length_append, Hex.hexEncode_length, List.length_take, List.length_drop, List.length_cons, List.length_nil, hu]; omega)

end Uuid

namespace Unicode

/-- Different allocations: `utf16_swap_endianness`: stores are inside the first `src.len()` elements of the destination. -/
theorem apart_utf16 {i : Option Isa} (m : Mem) (p q : Ptr) (hpq : p.buf ≠ q.buf) (ws : List (BitVec 16)) (k : Nat) (hi : SwapImpl .u16 i ws.length)
    (hr : Spec.Reads m p (Spec.wordBytes 2 ws)) (hw : Spec.Writable m q (2 * k)) (hk : ws.length ≤ k) :
    Spec.Confined ((swap_endianness .u16 i ⟨p, ws.length⟩ ⟨q, k⟩).trace m) p (2 * ws.length) q (2 * ws.length) := by
  have hr' := Mem.keep_reads hr
  rw [wordBytes_length 2 ws] at hr'
  exact conf_wrote hpq (uses_swap_endianness (L := (· = p.buf)) (W := (· = q.buf)) (src := ⟨p, _⟩) (dst := ⟨q, k⟩) rfl rfl .u16 i)
    (C60_utf16 _ p q ws k hi hr' hw (noOverlap_of_ne hpq _ _) hk) (by rw [wordBytes_length, List.length_map])

/-- Different allocations: `utf32_swap_endianness`. -/
theorem apart_utf32 {i : Option Isa} (m : Mem) (p q : Ptr) (hpq : p.buf ≠ q.buf) (ws : List (BitVec 32)) (k : Nat) (hi : SwapImpl .u32 i ws.length)
    (hr : Spec.Reads m p (Spec.wordBytes 4 ws)) (hw : Spec.Writable m q (4 * k)) (hk : ws.length ≤ k) :
    Spec.Confined ((swap_endianness .u32 i ⟨p, ws.length⟩ ⟨q, k⟩).trace m) p (4 * ws.length) q (4 * ws.length) := by
  have hr' := Mem.keep_reads hr
  rw [wordBytes_length 4 ws] at hr'
  exact conf_wrote hpq (uses_swap_endianness (L := (· = p.buf)) (W := (· = q.buf)) (src := ⟨p, _⟩) (dst := ⟨q, k⟩) rfl rfl .u32 i)
    (C60_utf32 _ p q ws k hi hr' hw (noOverlap_of_ne hpq _ _) hk) (by rw [wordBytes_length, List.length_map])

end Unicode

end Simd
