import Verif.Props.Base64
import Verif.Props.Base32
import Verif.Props.Forgiving
import Verif.Props.HexRaw
import Verif.Lemmas.RawApi
/-
C59: the safe functions on borrowed slices, for slices anywhere in any memory. The slices may be parts of larger allocations,
and source and destination may be disjoint parts of the same allocation (`split_at_mut`). The cells next to the slices are
arbitrary, in particular uninitialised, so a call that reads one cell outside its source is undefined behaviour for some memory.
-/
namespace Simd

namespace Base64

/-- C59, `encode` of base64-simd with enough room: the text is written, nothing else in memory changes. -/
theorem C59_encode (P : Plat) {i : Option Isa} (hi : i ≠ some .sse2) {config url pad} (hv : IsVariant config url pad)
    (m : Mem) (p q : Ptr) (xs : List Byte) (d : Nat) (hr : Spec.Reads m p xs) (hw : Spec.Writable m q d)
    (hd : Spec.NoOverlap p xs.length q d) (hx : xs.length ≤ P.isizeMax) (h : (Spec.base64 url pad xs).length ≤ d) :
    ∃ m', (encode P i config ⟨p, xs.length⟩ ⟨q, d⟩).run m = .ok ⟨q, (Spec.base64 url pad xs).length⟩ m' ∧
      Spec.Wrote m m' q (Spec.base64 url pad xs) := by
  have := hv.fits P hx
  rw [← hv.text] at h ⊢
  exact (encApi hi config).encode_any_ok P hr hw hd h this

/-- C59, `encode` of base64-simd without enough room: an error, nothing changes. -/
theorem C59_encode_short (P : Plat) {i : Option Isa} (hi : i ≠ some .sse2) {config url pad} (hv : IsVariant config url pad)
    (m : Mem) (p q : Ptr) (xs : List Byte) (d : Nat) (hx : xs.length ≤ P.isizeMax) (h : d < (Spec.base64 url pad xs).length) :
    (encode P i config ⟨p, xs.length⟩ ⟨q, d⟩).run m = .err m := by
  rw [← hv.text] at h
  exact (encApi hi config).encode_any_err P h (hv.fits P hx)

/-- C59, `decode` of base64-simd on the encoding of `ys`. -/
theorem C59_decode {i : Option Isa} (hi : i ≠ some .sse2) {config url pad} (hv : IsVariant config url pad)
    (m : Mem) (p q : Ptr) (ys : List Byte) (d : Nat) (hr : Spec.Reads m p (Spec.base64 url pad ys)) (hw : Spec.Writable m q d)
    (hd : Spec.NoOverlap p (Spec.base64 url pad ys).length q d) :
    (ys.length ≤ d → ∃ m', (decode i config ⟨p, (Spec.base64 url pad ys).length⟩ ⟨q, d⟩).run m = .ok ⟨q, ys.length⟩ m' ∧ Spec.Wrote m m' q ys) ∧
    (d < ys.length → (decode i config ⟨p, (Spec.base64 url pad ys).length⟩ ⟨q, d⟩).run m = .err m) :=
  ⟨fun h => (decApi hi config).decode_any_ok hr hw hd ((hv.full _ ys).2 rfl) h,
   fun h => (decApi hi config).decode_any_short hr ((hv.full _ ys).2 rfl) h⟩

/-- C59, `decode` of base64-simd on a text that is no encoding: an error; only the destination may have changed. -/
theorem C59_decode_err {i : Option Isa} (hi : i ≠ some .sse2) {config url pad} (hv : IsVariant config url pad)
    (m : Mem) (p q : Ptr) (xs : List Byte) (d : Nat) (hr : Spec.Reads m p xs) (hw : Spec.Writable m q d)
    (hd : Spec.NoOverlap p xs.length q d) (h : ¬ ∃ ys, Spec.base64 url pad ys = xs) :
    ∃ m', (decode i config ⟨p, xs.length⟩ ⟨q, d⟩).run m = .err m' ∧ Spec.OnlyChanged m m' q d :=
  (decApi hi config).decode_any_err hr hw hd ((hv.full_none xs).2 h)

/-- C59, `decode_inplace` of base64-simd. -/
theorem C59_inplace {i : Option Isa} (hi : i ≠ some .sse2) {config url pad} (hv : IsVariant config url pad)
    (m : Mem) (p : Ptr) (xs : List Byte) (hr : Spec.Reads m p xs) :
    (∀ ys, Spec.base64 url pad ys = xs → ∃ m', (decode_inplace i config ⟨p, xs.length⟩).run m = .ok ⟨p, ys.length⟩ m' ∧ Spec.Wrote m m' p ys) ∧
    ((¬ ∃ ys, Spec.base64 url pad ys = xs) → ∃ m', (decode_inplace i config ⟨p, xs.length⟩).run m = .err m' ∧ Spec.OnlyChanged m m' p xs.length) :=
  ⟨fun ys h => (decApi hi config).inplace_any_ok hr ((hv.full xs ys).2 h),
   fun h => (decApi hi config).inplace_any_err hr ((hv.full_none xs).2 h)⟩

/-- C59, `check` of base64-simd: nothing changes. -/
theorem C59_check {i : Option Isa} (hi : i ≠ some .sse2) {config url pad} (hv : IsVariant config url pad)
    (m : Mem) (p : Ptr) (xs : List Byte) (hr : Spec.Reads m p xs) :
    ((∃ ys, Spec.base64 url pad ys = xs) → (check i config ⟨p, xs.length⟩).run m = .ok () m) ∧
    ((¬ ∃ ys, Spec.base64 url pad ys = xs) → (check i config ⟨p, xs.length⟩).run m = .err m) := by
  have h : (check i config ⟨p, xs.length⟩).run m = _ := (decApi hi config).check_any hr
  rw [full_eq] at h
  rw [h]
  constructor
  · rintro ⟨ys, hy⟩
    rw [(hv.full xs ys).2 hy]; rfl
  · intro hn
    rw [(hv.full_none xs).2 hn]; rfl

/-- C59, `forgiving_decode`: the bytes of the WHATWG algorithm or an error; only the first `src.len()` bytes of the destination change. -/
theorem C59_forgiving (fi : Option Isa) {di : Option Isa} (hi : di ≠ some .sse2) (m : Mem) (p q : Ptr) (xs : List Byte) (d : Nat)
    (hr : Spec.Reads m p xs) (hw : Spec.Writable m q d) (hl : xs.length ≤ d) (hd : Spec.NoOverlap p xs.length q d) :
    (∀ ys, Spec.forgivingDecode xs = some ys → ∃ m', (forgiving_decode fi di ⟨p, xs.length⟩ ⟨q, d⟩).run m = .ok ⟨q, ys.length⟩ m' ∧
      Spec.Reads m' q ys ∧ Spec.OnlyChanged m m' q xs.length) ∧
    (Spec.forgivingDecode xs = none → ∃ m', (forgiving_decode fi di ⟨p, xs.length⟩ ⟨q, d⟩).run m = .err m' ∧ Spec.OnlyChanged m m' q xs.length) := by
  have ha : Apart p q xs.length xs.length := by
    rcases (hd.mono (Nat.le_refl _) hl).apart with h | h | h
    · unfold Apart; omega
    · unfold Apart; omega
    · exact h
  rcases wp_out (forgiving_decode_wp fi hi hr.has hw hl ha) with ⟨a, m', h1, zs, hz, rfl, hb, hso, _⟩ | ⟨m', h1, hn, hso⟩
  · refine ⟨fun ys hy => ?_, fun hn => ?_⟩
    · rw [hy] at hz; cases hz
      exact ⟨m', h1, hb, hso.only⟩
    · rw [hn] at hz; cases hz
  · refine ⟨fun ys hy => ?_, fun _ => ⟨m', h1, hso.only⟩⟩
    rw [hy] at hn; cases hn

/-- C59, `forgiving_decode_inplace`. -/
theorem C59_forgiving_inplace (fi : Option Isa) {di : Option Isa} (hi : di ≠ some .sse2) (m : Mem) (p : Ptr) (xs : List Byte) (hr : Spec.Reads m p xs) :
    (∀ ys, Spec.forgivingDecode xs = some ys → ∃ m', (forgiving_decode_inplace fi di ⟨p, xs.length⟩).run m = .ok ⟨p, ys.length⟩ m' ∧
      Spec.Reads m' p ys ∧ Spec.OnlyChanged m m' p xs.length) ∧
    (Spec.forgivingDecode xs = none → ∃ m', (forgiving_decode_inplace fi di ⟨p, xs.length⟩).run m = .err m' ∧ Spec.OnlyChanged m m' p xs.length) := by
  rcases wp_out (forgiving_inplace_wp fi hi hr.has) with ⟨a, m', h1, zs, hz, rfl, hb, hso⟩ | ⟨m', h1, hn, hso⟩
  · refine ⟨fun ys hy => ?_, fun hn => ?_⟩
    · rw [hy] at hz; cases hz
      exact ⟨m', h1, hb, hso.only⟩
    · rw [hn] at hz; cases hz
  · refine ⟨fun ys hy => ?_, fun _ => ⟨m', h1, hso.only⟩⟩
    rw [hy] at hn; cases hn

end Base64

namespace Base32

/-- C59, `encode` of base32-simd with enough room. -/
theorem C59_encode (P : Plat) (w : Bool) {i : Option Isa} (hi : Impl i) {config hex pad} (hv : IsVariant config hex pad)
    (m : Mem) (p q : Ptr) (xs : List Byte) (d : Nat) (hr : Spec.Reads m p xs) (hw : Spec.Writable m q d)
    (hd : Spec.NoOverlap p xs.length q d) (hx : xs.length ≤ P.isizeMax) (h : (Spec.base32 hex pad xs).length ≤ d) :
    ∃ m', (encode P w i config ⟨p, xs.length⟩ ⟨q, d⟩).run m = .ok ⟨q, (Spec.base32 hex pad xs).length⟩ m' ∧
      Spec.Wrote m m' q (Spec.base32 hex pad xs) := by
  have := hv.fits P hx
  rw [← hv.text] at h ⊢
  exact (encApi w hi config).encode_any_ok P hr hw hd h this

/-- C59, `encode` of base32-simd without enough room. -/
theorem C59_encode_short (P : Plat) (w : Bool) {i : Option Isa} (hi : Impl i) {config hex pad} (hv : IsVariant config hex pad)
    (m : Mem) (p q : Ptr) (xs : List Byte) (d : Nat) (hx : xs.length ≤ P.isizeMax) (h : d < (Spec.base32 hex pad xs).length) :
    (encode P w i config ⟨p, xs.length⟩ ⟨q, d⟩).run m = .err m := by
  rw [← hv.text] at h
  exact (encApi w hi config).encode_any_err P h (hv.fits P hx)

/-- C59, `decode` of base32-simd on the encoding of `ys`. -/
theorem C59_decode (w : Bool) {i : Option Isa} (hi : Impl i) {config hex pad} (hv : IsVariant config hex pad)
    (m : Mem) (p q : Ptr) (ys : List Byte) (d : Nat) (hr : Spec.Reads m p (Spec.base32 hex pad ys)) (hw : Spec.Writable m q d)
    (hd : Spec.NoOverlap p (Spec.base32 hex pad ys).length q d) :
    (ys.length ≤ d → ∃ m', (decode w i config ⟨p, (Spec.base32 hex pad ys).length⟩ ⟨q, d⟩).run m = .ok ⟨q, ys.length⟩ m' ∧ Spec.Wrote m m' q ys) ∧
    (d < ys.length → (decode w i config ⟨p, (Spec.base32 hex pad ys).length⟩ ⟨q, d⟩).run m = .err m) :=
  ⟨fun h => (decApi w hi (j := none) (by simp) config).decode_any_ok hr hw hd ((hv.full _ ys).2 rfl) h,
   fun h => (decApi w hi (j := none) (by simp) config).decode_any_short hr ((hv.full _ ys).2 rfl) h⟩

/-- C59, `decode` of base32-simd on a text that is no encoding. -/
theorem C59_decode_err (w : Bool) {i : Option Isa} (hi : Impl i) {config hex pad} (hv : IsVariant config hex pad)
    (m : Mem) (p q : Ptr) (xs : List Byte) (d : Nat) (hr : Spec.Reads m p xs) (hw : Spec.Writable m q d)
    (hd : Spec.NoOverlap p xs.length q d) (h : ¬ ∃ ys, Spec.base32 hex pad ys = xs) :
    ∃ m', (decode w i config ⟨p, xs.length⟩ ⟨q, d⟩).run m = .err m' ∧ Spec.OnlyChanged m m' q d :=
  (decApi w hi (j := none) (by simp) config).decode_any_err hr hw hd ((hv.full_none xs).2 h)

/-- C59, `decode_inplace` of base32-simd. -/
theorem C59_inplace (w : Bool) {i : Option Isa} (hi : Impl i) {config hex pad} (hv : IsVariant config hex pad)
    (m : Mem) (p : Ptr) (xs : List Byte) (hr : Spec.Reads m p xs) :
    (∀ ys, Spec.base32 hex pad ys = xs → ∃ m', (decode_inplace w i config ⟨p, xs.length⟩).run m = .ok ⟨p, ys.length⟩ m' ∧ Spec.Wrote m m' p ys) ∧
    ((¬ ∃ ys, Spec.base32 hex pad ys = xs) → ∃ m', (decode_inplace w i config ⟨p, xs.length⟩).run m = .err m' ∧ Spec.OnlyChanged m m' p xs.length) :=
  ⟨fun ys h => (decApi w hi (j := none) (by simp) config).inplace_any_ok hr ((hv.full xs ys).2 h),
   fun h => (decApi w hi (j := none) (by simp) config).inplace_any_err hr ((hv.full_none xs).2 h)⟩

/-- C59, `check` of base32-simd. -/
theorem C59_check {i : Option Isa} (hi : i ≠ some .sse2) {config hex pad} (hv : IsVariant config hex pad)
    (m : Mem) (p : Ptr) (xs : List Byte) (hr : Spec.Reads m p xs) :
    ((∃ ys, Spec.base32 hex pad ys = xs) → (check i config ⟨p, xs.length⟩).run m = .ok () m) ∧
    ((¬ ∃ ys, Spec.base32 hex pad ys = xs) → (check i config ⟨p, xs.length⟩).run m = .err m) := by
  have h : (check i config ⟨p, xs.length⟩).run m = _ := (decApi false impl_none hi config).check_any hr
  rw [full_eq] at h
  rw [h]
  constructor
  · rintro ⟨ys, hy⟩
    rw [(hv.full xs ys).2 hy]; rfl
  · intro hn
    rw [(hv.full_none xs).2 hn]; rfl

end Base32

namespace Hex

/-- C59, `encode` of hex-simd. -/
theorem C59_encode (P : Plat) (i : Option Isa) (case : AsciiCase) (m : Mem) (p q : Ptr) (xs : List Byte) (d : Nat)
    (hr : Spec.Reads m p xs) (hw : Spec.Writable m q d) (hsz : d ≤ P.usizeMax) (hd : Spec.NoOverlap p xs.length q d) :
    (2 * xs.length ≤ d → ∃ m', (encode P i ⟨p, xs.length⟩ ⟨q, d⟩ case).run m = .ok ⟨q, 2 * xs.length⟩ m' ∧
      Spec.Wrote m m' q (Spec.hexEncode (case == .upper) xs)) ∧
    (d < 2 * xs.length → (encode P i ⟨p, xs.length⟩ ⟨q, d⟩ case).run m = .err m) := by
  constructor
  · intro h
    have ha : Apart p q xs.length (2 * xs.length) := by
      rcases (hd.mono (Nat.le_refl _) h).apart with h | h | h
      · unfold Apart; omega
      · unfold Apart; omega
      · exact h
    unfold Spec.Writable at hw
    have h1 := (encode_auto_spec i case hr.has rfl (by unfold CanWrite; omega) ha).ret (f := fun _ => (⟨q, 2 * xs.length⟩ : Slice))
    have e : P.mulU xs.length 2 = some (2 * xs.length) := by rw [Plat.mulU, if_pos (by omega), Nat.mul_comm]
    rw [← hexEnc_spec]
    refine Does.raw_ok (spec := encS case) (n := 2 * xs.length) ?_ rfl
    unfold encode
    refine Does.ensure (by simp; omega) ?_
    simp only [e]
    exact h1
  · intro h
    unfold encode
    exact run_ensure_false (by simp; omega)

theorem decode_any_does (i : Option Isa) (m : Mem) (p q : Ptr) (xs : List Byte) (d : Nat)
    (hr : Spec.Reads m p xs) (hw : Spec.Writable m q d) (hd : Spec.NoOverlap p xs.length q d) (he : xs.length % 2 = 0) (h : xs.length / 2 ≤ d) :
    Does (decode i ⟨p, xs.length⟩ ⟨q, d⟩) ⟨q, xs.length / 2⟩ hexDec xs q (xs.length / 2) m := by
  have ha : DecSafe p q (xs.length / 2) := by
    unfold DecSafe
    rcases (hd.mono (Nat.le_refl _) h).apart with h | h | h
    · omega
    · omega
    · unfold Apart at h; omega
  unfold Spec.Writable at hw
  have h1 := (decode_auto_spec i (k := xs.length / 2) hr.has (by omega) (by unfold CanWrite; omega) ha).ret (f := fun _ => (⟨q, xs.length / 2⟩ : Slice))
  rw [show 2 * (xs.length / 2) = xs.length by omega] at h1
  unfold decode
  exact Does.ensure (by simp; omega) h1

/-- C59, `decode` of hex-simd: success iff the text is hexadecimal text for `ys` and there is room; otherwise an error, and at most
the first `src.len() / 2` bytes of the destination have changed. -/
theorem C59_decode (i : Option Isa) (m : Mem) (p q : Ptr) (xs : List Byte) (d : Nat)
    (hr : Spec.Reads m p xs) (hw : Spec.Writable m q d) (hd : Spec.NoOverlap p xs.length q d) :
    (∀ ys, Spec.IsHexOf xs ys → ys.length ≤ d → ∃ m', (decode i ⟨p, xs.length⟩ ⟨q, d⟩).run m = .ok ⟨q, ys.length⟩ m' ∧ Spec.Wrote m m' q ys) ∧
    (∀ ys, Spec.IsHexOf xs ys → d < ys.length → (decode i ⟨p, xs.length⟩ ⟨q, d⟩).run m = .err m) ∧
    ((¬ ∃ ys, Spec.IsHexOf xs ys) → ∃ m', (decode i ⟨p, xs.length⟩ ⟨q, d⟩).run m = .err m' ∧ Spec.OnlyChanged m m' q (xs.length / 2)) := by
  refine ⟨fun ys hy h => ?_, fun ys hy h => ?_, fun hy => ?_⟩
  · have hl := isHexOf_length hy
    have := (decode_any_does i m p q xs d hr hw hd (by omega) (by omega)).raw_ok ((hexDec_spec xs ys (by omega)).2 hy)
    rwa [show xs.length / 2 = ys.length by omega] at this
  · have hl := isHexOf_length hy
    unfold decode
    exact run_ensure_false (by simp; omega)
  · by_cases hc : xs.length % 2 = 0 ∧ xs.length / 2 ≤ d
    · refine (decode_any_does i m p q xs d hr hw hd hc.1 hc.2).raw_err ?_
      cases hx : hexDec xs with
      | none => rfl
      | some ys => exact absurd ⟨ys, (hexDec_spec xs ys hc.1).1 hx⟩ hy
    · refine ⟨m, ?_, SameOutside.refl.only⟩
      unfold decode
      exact run_ensure_false (by simp; omega)

/-- C59, `decode_inplace` of hex-simd. -/
theorem C59_inplace (i : Option Isa) (m : Mem) (p : Ptr) (xs : List Byte) (hr : Spec.Reads m p xs) :
    (∀ ys, Spec.IsHexOf xs ys → ∃ m', (decode_inplace i ⟨p, xs.length⟩).run m = .ok ⟨p, ys.length⟩ m' ∧ Spec.Wrote m m' p ys) ∧
    ((¬ ∃ ys, Spec.IsHexOf xs ys) → ∃ m', (decode_inplace i ⟨p, xs.length⟩).run m = .err m' ∧ Spec.OnlyChanged m m' p (xs.length / 2)) := by
  have hb := hr.has.bound
  have D : xs.length % 2 = 0 → Does (decode_inplace i ⟨p, xs.length⟩) ⟨p, xs.length / 2⟩ hexDec xs p (xs.length / 2) m := by
    intro he
    have h1 := (decode_auto_spec i (q := p) (k := xs.length / 2) hr.has (by omega) (by unfold CanWrite; omega)
      (by unfold DecSafe; omega)).ret (f := fun _ => (⟨p, xs.length / 2⟩ : Slice))
    rw [show 2 * (xs.length / 2) = xs.length by omega] at h1
    unfold decode_inplace
    exact Does.ensure (by simp; omega) h1
  refine ⟨fun ys hy => ?_, fun hy => ?_⟩
  · have hl := isHexOf_length hy
    have := (D (by omega)).raw_ok ((hexDec_spec xs ys (by omega)).2 hy)
    rwa [show xs.length / 2 = ys.length by omega] at this
  · by_cases hc : xs.length % 2 = 0
    · refine (D hc).raw_err ?_
      cases hx : hexDec xs with
      | none => rfl
      | some ys => exact absurd ⟨ys, (hexDec_spec xs ys hc).1 hx⟩ hy
    · refine ⟨m, ?_, SameOutside.refl.only⟩
      unfold decode_inplace
      exact run_ensure_false (by simp; omega)

end Hex

/-- One allocation of 12 bytes holding the text `QUJD` at offset 2 and a destination of 5 bytes right behind it; the rest is uninitialised. -/
def anyMem : Mem := Mem.ofBufs [List.replicate 2 none ++ [0x51#8, 0x55#8, 0x4a#8, 0x44#8].map some ++ List.replicate 6 none]

example : Spec.base64 false true [0x41#8, 0x42#8, 0x43#8] = [0x51#8, 0x55#8, 0x4a#8, 0x44#8] ∧
    Spec.Reads anyMem ⟨0, 2⟩ [0x51#8, 0x55#8, 0x4a#8, 0x44#8] ∧ Spec.Writable anyMem ⟨0, 6⟩ 5 ∧ Spec.NoOverlap ⟨0, 2⟩ 4 ⟨0, 6⟩ 5 ∧
    ¬ Spec.NoOverlap ⟨0, 2⟩ 4 ⟨0, 5⟩ 5 := by
  refine ⟨by decide +kernel, ⟨by decide, ?_⟩, by unfold Spec.Writable; decide, fun i j hi hj => by dsimp only; omega, ?_⟩
  · intro i h
    have : i = 0 ∨ i = 1 ∨ i = 2 ∨ i = 3 := by simp at h; omega
    rcases this with rfl | rfl | rfl | rfl <;> rfl
  · intro h; exact h 3 0 (by omega) (by omega) ⟨rfl, rfl⟩

end Simd
