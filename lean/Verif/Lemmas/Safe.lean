import Verif.Props.Anywhere
import Verif.Props.AnywhereText
import Verif.Lemmas.RenConfined
/-
The functions with a source and a destination have no undefined behaviour if the two have no byte in common (from C58, C59 and C60).
-/
namespace Simd

namespace Base64

theorem safe_encode (P : Plat) {i : Option Isa} (hi : i ≠ some .sse2) {config url pad} (hv : IsVariant config url pad) {xs : List Byte} {d : Nat} (hx : xs.length ≤ P.isizeMax)
    (m : Mem) (p q : Ptr) (hr : Spec.Reads m p xs) (hw : Spec.Writable m q d) (ho : Spec.NoOverlap p xs.length q d) :
    (encode P i config ⟨p, xs.length⟩ ⟨q, d⟩).run m ≠ .ub := by
  by_cases h : (Spec.base64 url pad xs).length ≤ d
  · exact ok_ne (C59_encode P hi hv m p q xs d hr hw ho hx h)
  · exact err_ne' (C59_encode_short P hi hv m p q xs d hx (by omega))

theorem safe_decode {i : Option Isa} (hi : i ≠ some .sse2) {config url pad} (hv : IsVariant config url pad) {xs : List Byte} {d : Nat}
    (m : Mem) (p q : Ptr) (hr : Spec.Reads m p xs) (hw : Spec.Writable m q d) (ho : Spec.NoOverlap p xs.length q d) :
    (decode i config ⟨p, xs.length⟩ ⟨q, d⟩).run m ≠ .ub := by
  by_cases h : ∃ ys, Spec.base64 url pad ys = xs
  · obtain ⟨ys, rfl⟩ := h
    have := C59_decode hi hv m p q ys d hr hw ho
    by_cases h : ys.length ≤ d
    · exact ok_ne (this.1 h)
    · exact err_ne' (this.2 (by omega))
  · exact err_ne (C59_decode_err hi hv m p q xs d hr hw ho h)

theorem safe_forgiving (fi : Option Isa) {di : Option Isa} (hi : di ≠ some .sse2) {xs : List Byte} {d : Nat} (hl : xs.length ≤ d)
    (m : Mem) (p q : Ptr) (hr : Spec.Reads m p xs) (hw : Spec.Writable m q d) (ho : Spec.NoOverlap p xs.length q d) :
    (forgiving_decode fi di ⟨p, xs.length⟩ ⟨q, d⟩).run m ≠ .ub := by
  have := C59_forgiving fi hi m p q xs d hr hw hl ho
  cases h : Spec.forgivingDecode xs with
  | some ys => exact ok_ne (this.1 ys h)
  | none => exact err_ne (this.2 h)

end Base64

namespace Base32

theorem safe_encode (P : Plat) (w : Bool) {i : Option Isa} (hi : Impl i) {config hex pad} (hv : IsVariant config hex pad) {xs : List Byte} {d : Nat} (hx : xs.length ≤ P.isizeMax)
    (m : Mem) (p q : Ptr) (hr : Spec.Reads m p xs) (hw : Spec.Writable m q d) (ho : Spec.NoOverlap p xs.length q d) :
    (encode P w i config ⟨p, xs.length⟩ ⟨q, d⟩).run m ≠ .ub := by
  by_cases h : (Spec.base32 hex pad xs).length ≤ d
  · exact ok_ne (C59_encode P w hi hv m p q xs d hr hw ho hx h)
  · exact err_ne' (C59_encode_short P w hi hv m p q xs d hx (by omega))

theorem safe_decode (w : Bool) {i : Option Isa} (hi : Impl i) {config hex pad} (hv : IsVariant config hex pad) {xs : List Byte} {d : Nat}
    (m : Mem) (p q : Ptr) (hr : Spec.Reads m p xs) (hw : Spec.Writable m q d) (ho : Spec.NoOverlap p xs.length q d) :
    (decode w i config ⟨p, xs.length⟩ ⟨q, d⟩).run m ≠ .ub := by
  by_cases h : ∃ ys, Spec.base32 hex pad ys = xs
  · obtain ⟨ys, rfl⟩ := h
    have := C59_decode w hi hv m p q ys d hr hw ho
    by_cases h : ys.length ≤ d
    · exact ok_ne (this.1 h)
    · exact err_ne' (this.2 (by omega))
  · exact err_ne (C59_decode_err w hi hv m p q xs d hr hw ho h)

end Base32

namespace Hex

theorem safe_encode (P : Plat) (i : Option Isa) (case : AsciiCase) {xs : List Byte} {d : Nat} (hsz : d ≤ P.usizeMax)
    (m : Mem) (p q : Ptr) (hr : Spec.Reads m p xs) (hw : Spec.Writable m q d) (ho : Spec.NoOverlap p xs.length q d) :
    (encode P i ⟨p, xs.length⟩ ⟨q, d⟩ case).run m ≠ .ub := by
  have := C59_encode P i case m p q xs d hr hw hsz ho
  by_cases h : 2 * xs.length ≤ d
  · exact ok_ne (this.1 h)
  · exact err_ne' (this.2 (by omega))

theorem safe_decode (i : Option Isa) {xs : List Byte} {d : Nat}
    (m : Mem) (p q : Ptr) (hr : Spec.Reads m p xs) (hw : Spec.Writable m q d) (ho : Spec.NoOverlap p xs.length q d) :
    (decode i ⟨p, xs.length⟩ ⟨q, d⟩).run m ≠ .ub := by
  have := C59_decode i m p q xs d hr hw ho
  by_cases h : ∃ ys, Spec.IsHexOf xs ys
  · obtain ⟨ys, h⟩ := h
    by_cases h' : ys.length ≤ d
    · exact ok_ne (this.1 ys h h')
    · exact err_ne' (this.2.1 ys h (by omega))
  · exact err_ne (this.2.2 h)

theorem safe_encode_raw (P : Plat) (i : Option Isa) (case : AsciiCase) {xs : List Byte} (hsz : 2 * xs.length ≤ P.usizeMax)
    (m : Mem) (p q : Ptr) (hr : Spec.Reads m p xs) (hw : Spec.Writable m q (2 * xs.length)) (ho : Spec.NoOverlap p xs.length q (2 * xs.length)) :
    (encode_raw P i p xs.length q case).run m ≠ .ub := ok_ne (C58_encode_raw P i case m p q xs hr hw hsz ho)

theorem safe_decode_raw (i : Option Isa) {xs : List Byte}
    (m : Mem) (p q : Ptr) (hr : Spec.Reads m p xs) (hw : Spec.Writable m q (xs.length / 2)) (ho : Spec.NoOverlap p xs.length q (xs.length / 2)) :
    (decode_raw i p xs.length q).run m ≠ .ub := by
  by_cases hy : ∃ ys, Spec.IsHexOf xs ys
  · obtain ⟨ys, hy⟩ := hy
    exact ok_ne (C58_decode_raw_ok i m p q xs ys hr hw (.inl ho) hy)
  · exact err_ne (C58_decode_raw_err i m p q xs hr hw (.inl ho) hy)

end Hex

namespace Uuid

theorem safe_parse (si : Option Isa) {hi : Option Isa} (hh : HypImpl hi) {xs : List Byte}
    (m : Mem) (p q : Ptr) (hr : Spec.Reads m p xs) (hw : Spec.Writable m q 16) (ho : Spec.NoOverlap p xs.length q 16) : (parse si hi ⟨p, xs.length⟩ q).run m ≠ .ub := by
  have := C60_parse si hh m p q xs hr hw ho
  by_cases h : ∃ u, Spec.IsUuid xs u
  · obtain ⟨u, h⟩ := h; exact ok_ne (this.1 u h)
  · exact err_ne (this.2 h)

theorem safe_parse_simple (i : Option Isa) {xs : List Byte}
    (m : Mem) (p q : Ptr) (hr : Spec.Reads m p xs) (hw : Spec.Writable m q 16) (ho : Spec.NoOverlap p xs.length q 16) : (parse_simple i ⟨p, xs.length⟩ q).run m ≠ .ub := by
  have := C60_parse_simple i m p q xs hr hw ho
  by_cases h : ∃ u, Spec.IsUuidSimple xs u
  · obtain ⟨u, h⟩ := h; exact ok_ne (this.1 u h)
  · exact err_ne (this.2 h)

theorem safe_parse_hyphenated {i : Option Isa} (hi : HypImpl i) {xs : List Byte}
    (m : Mem) (p q : Ptr) (hr : Spec.Reads m p xs) (hw : Spec.Writable m q 16) (ho : Spec.NoOverlap p xs.length q 16) : (parse_hyphenated i ⟨p, xs.length⟩ q).run m ≠ .ub := by
  have := C60_parse_hyphenated hi m p q xs hr hw ho
  by_cases h : ∃ u, Spec.IsUuidHyphenated xs u
  · obtain ⟨u, h⟩ := h; exact ok_ne (this.1 u h)
  · exact err_ne (this.2 h)

end Uuid

end Simd
