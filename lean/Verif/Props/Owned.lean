import Verif.Model.Owned
import Verif.Spec.Utf8
import Verif.Props.AnywhereHeap
/-
C77: the caller's choice of result type does not change the result.
-/
namespace Simd

/-- The value has the chosen type. -/
def Owned.HasTy : Owned → EncodeTy → Prop
  | .bytes _, .bytes => True
  | .str _, .str => True
  | .vec _, .vec => True
  | .string _, .string => True
  | _, _ => False

/-- The result types of decoding are among those of encoding. -/
def DecodeTy.ty : DecodeTy → EncodeTy
  | .bytes => .bytes
  | .vec => .vec

/-- The value is new and owns exactly the bytes `ys`, in an allocation of exactly that size; a `str` or `String` holds UTF-8. -/
def Owned.Owns (m m' : Mem) (ys : List Byte) : Owned → Prop
  | .bytes s => Spec.NewBox m m' s ys
  | .str s => Spec.NewBox m m' s ys ∧ Spec.ValidUtf8 ys
  | .vec v => Spec.NewVec m m' v ys ∧ v.cap = v.len
  | .string v => Spec.NewVec m m' v ys ∧ v.cap = v.len ∧ Spec.ValidUtf8 ys

theorem encode_types {X : EncodeTy → Prog Owned} {x : Prog Slice} {m : Mem} {t : List Byte} {b : Nat}
    (hX : ∀ ty, X ty = (x >>= fun s => pure (match ty with | .bytes => .bytes s | .str => .str s | .vec => .vec (.ofBox s) | .string => .string (.ofBox s))))
    (h1 : t.length ≤ b → ∃ s m', x.run m = .ok s m' ∧ Spec.NewBox m m' s t ∧ Spec.Kept m m') (h2 : b < t.length → x.run m = .panic)
    (hu : Spec.ValidUtf8 t) (ty : EncodeTy) :
    (t.length ≤ b → ∃ o m', (X ty).run m = .ok o m' ∧ o.HasTy ty ∧ o.Owns m m' t ∧ Spec.Kept m m') ∧ (b < t.length → (X ty).run m = .panic) := by
  rw [hX ty]
  refine ⟨fun h => ?_, fun h => by rw [run_bind, h2 h]⟩
  obtain ⟨s, m', hr, hb, hk⟩ := h1 h
  refine ⟨_, m', by rw [run_bind, hr]; rfl, ?_⟩
  cases ty
  · exact ⟨trivial, hb, hk⟩
  · exact ⟨trivial, ⟨hb, hu⟩, hk⟩
  · exact ⟨trivial, ⟨hb.vec, rfl⟩, hk⟩
  · exact ⟨trivial, ⟨hb.vec, rfl, hu⟩, hk⟩

theorem decode_types {X : DecodeTy → Prog Owned} {x : Prog Slice} {m : Mem} {Q : List Byte → Prop}
    (hX : ∀ ty, X ty = (x >>= fun s => pure (match ty with | .bytes => .bytes s | .vec => .vec (.ofBox s))))
    (h1 : ∀ ys, Q ys → ∃ s m', x.run m = .ok s m' ∧ Spec.NewBox m m' s ys ∧ Spec.Kept m m')
    (h2 : (¬ ∃ ys, Q ys) → ∃ m', x.run m = .err m' ∧ Spec.Kept m m') (ty : DecodeTy) :
    (∀ ys, Q ys → ∃ o m', (X ty).run m = .ok o m' ∧ o.HasTy ty.ty ∧ o.Owns m m' ys ∧ Spec.Kept m m') ∧
    ((¬ ∃ ys, Q ys) → ∃ m', (X ty).run m = .err m' ∧ Spec.Kept m m') := by
  rw [hX ty]
  refine ⟨fun ys h => ?_, fun h => ?_⟩
  · obtain ⟨s, m', hr, hb, hk⟩ := h1 ys h
    refine ⟨_, m', by rw [run_bind, hr]; rfl, ?_⟩
    cases ty
    · exact ⟨trivial, hb, hk⟩
    · exact ⟨trivial, ⟨hb.vec, rfl⟩, hk⟩
  · obtain ⟨m', hr, hk⟩ := h2 h
    exact ⟨m', by rw [run_bind, hr], hk⟩

/-- C77, `Base64::encode_type`: for each of the four types a value of that type owning exactly the RFC 4648 text, in an allocation of exactly its size; for `str` and
`String` it is UTF-8. It panics exactly when the text is longer than `usize::MAX / 2`. -/
theorem Base64.C77_encode_type (P : Plat) {i : Option Isa} (hi : i ≠ some .sse2) {config url pad} (hv : IsVariant config url pad)
    (m : Mem) (p : Ptr) (xs : List Byte) (hr : Spec.Reads m p xs) (hp : p.buf < m.nbuf) (hx : xs.length ≤ P.isizeMax) (ty : EncodeTy) :
    let t := Spec.base64 url pad xs
    (t.length ≤ P.usizeMax / 2 → ∃ o m', (encode_type P i config ⟨p, xs.length⟩ ty).run m = .ok o m' ∧ o.HasTy ty ∧ o.Owns m m' t ∧ Spec.Kept m m') ∧
    (P.usizeMax / 2 < t.length → (encode_type P i config ⟨p, xs.length⟩ ty).run m = .panic) := by
  have h := C61_encode_owned P hi hv m p xs hr hp hx
  exact encode_types (X := encode_type P i config ⟨p, xs.length⟩) (fun ty => by cases ty <;> rfl) (fun ht => (h.1 ht).1) (fun ht => (h.2 ht).1)
    (.ascii fun c hc => (C17_alphabet url pad xs c hc).2) ty

/-- C77, `Base64::decode_type`. -/
theorem Base64.C77_decode_type (P : Plat) {i : Option Isa} (hi : i ≠ some .sse2) {config url pad} (hv : IsVariant config url pad)
    (m : Mem) (p : Ptr) (xs : List Byte) (hr : Spec.Reads m p xs) (hp : p.buf < m.nbuf) (hx : xs.length ≤ P.isizeMax) (ty : DecodeTy) :
    (∀ ys, Spec.base64 url pad ys = xs → ∃ o m', (decode_type P i config ⟨p, xs.length⟩ ty).run m = .ok o m' ∧ o.HasTy ty.ty ∧ o.Owns m m' ys ∧ Spec.Kept m m') ∧
    ((¬ ∃ ys, Spec.base64 url pad ys = xs) → ∃ m', (decode_type P i config ⟨p, xs.length⟩ ty).run m = .err m' ∧ Spec.Kept m m') := by
  have h := C61_decode_owned P hi hv m p xs hr hp hx
  exact decode_types (X := decode_type P i config ⟨p, xs.length⟩) (fun ty => by cases ty <;> rfl) (fun ys hy => (h.1 ys hy).1) (fun hn => (h.2 hn).1) ty

/-- C77, `Base32::encode_type`. -/
theorem Base32.C77_encode_type (P : Plat) (w : Bool) {i : Option Isa} (hi : Impl i) {config hex pad} (hv : IsVariant config hex pad)
    (m : Mem) (p : Ptr) (xs : List Byte) (hr : Spec.Reads m p xs) (hp : p.buf < m.nbuf) (hx : xs.length ≤ P.isizeMax) (ty : EncodeTy) :
    let t := Spec.base32 hex pad xs
    (t.length ≤ P.usizeMax / 2 → ∃ o m', (encode_type P w i config ⟨p, xs.length⟩ ty).run m = .ok o m' ∧ o.HasTy ty ∧ o.Owns m m' t ∧ Spec.Kept m m') ∧
    (P.usizeMax / 2 < t.length → (encode_type P w i config ⟨p, xs.length⟩ ty).run m = .panic) := by
  have h := C61_encode_owned P w hi hv m p xs hr hp hx
  exact encode_types (X := encode_type P w i config ⟨p, xs.length⟩) (fun ty => by cases ty <;> rfl) (fun ht => (h.1 ht).1) (fun ht => (h.2 ht).1)
    (.ascii fun c hc => (C28_alphabet hex pad xs c hc).2) ty

/-- C77, `Base32::decode_type`. -/
theorem Base32.C77_decode_type (P : Plat) (w : Bool) {i : Option Isa} (hi : Impl i) {config hex pad} (hv : IsVariant config hex pad)
    (m : Mem) (p : Ptr) (xs : List Byte) (hr : Spec.Reads m p xs) (hp : p.buf < m.nbuf) (hx : xs.length ≤ P.isizeMax) (ty : DecodeTy) :
    (∀ ys, Spec.base32 hex pad ys = xs → ∃ o m', (decode_type P w i config ⟨p, xs.length⟩ ty).run m = .ok o m' ∧ o.HasTy ty.ty ∧ o.Owns m m' ys ∧ Spec.Kept m m') ∧
    ((¬ ∃ ys, Spec.base32 hex pad ys = xs) → ∃ m', (decode_type P w i config ⟨p, xs.length⟩ ty).run m = .err m' ∧ Spec.Kept m m') := by
  have h := C61_decode_owned P w hi hv m p xs hr hp hx
  exact decode_types (X := decode_type P w i config ⟨p, xs.length⟩) (fun ty => by cases ty <;> rfl) (fun ys hy => (h.1 ys hy).1) (fun hn => (h.2 hn).1) ty

/-- C77, `encode_type` of hex-simd. -/
theorem Hex.C77_encode_type (P : Plat) (i : Option Isa) (case : AsciiCase) (m : Mem) (p : Ptr) (xs : List Byte) (hr : Spec.Reads m p xs) (hp : p.buf < m.nbuf)
    (hx : xs.length ≤ P.isizeMax) (ty : EncodeTy) :
    let t := Spec.hexEncode (case == .upper) xs
    (t.length ≤ P.usizeMax / 2 → ∃ o m', (encode_type P i ⟨p, xs.length⟩ case ty).run m = .ok o m' ∧ o.HasTy ty ∧ o.Owns m m' t ∧ Spec.Kept m m') ∧
    (P.usizeMax / 2 < t.length → (encode_type P i ⟨p, xs.length⟩ case ty).run m = .panic) := by
  have h := C61_encode_owned P i case m p xs hr hp hx
  exact encode_types (X := encode_type P i ⟨p, xs.length⟩ case) (fun ty => by cases ty <;> rfl) (fun ht => (h.1 ht).1) (fun ht => (h.2 ht).1)
    (.ascii (C37_ascii (case == .upper) xs)) ty

/-- C77, `decode_type` of hex-simd. -/
theorem Hex.C77_decode_type (P : Plat) (i : Option Isa) (m : Mem) (p : Ptr) (xs : List Byte) (hr : Spec.Reads m p xs) (hp : p.buf < m.nbuf)
    (hx : xs.length ≤ P.isizeMax) (ty : DecodeTy) :
    (∀ ys, Spec.IsHexOf xs ys → ∃ o m', (decode_type P i ⟨p, xs.length⟩ ty).run m = .ok o m' ∧ o.HasTy ty.ty ∧ o.Owns m m' ys ∧ Spec.Kept m m') ∧
    ((¬ ∃ ys, Spec.IsHexOf xs ys) → ∃ m', (decode_type P i ⟨p, xs.length⟩ ty).run m = .err m' ∧ Spec.Kept m m') := by
  have h := C61_decode_owned P i m p xs hr hp hx
  exact decode_types (X := decode_type P i ⟨p, xs.length⟩) (fun ty => by cases ty <;> rfl) (fun ys hy => (h.1 ys hy).1) (fun hn => (h.2 hn).1) ty

/-- The hypotheses are met: two bytes in the middle of an allocation are encoded; `AB` is a hexadecimal text. -/
example : let P : Plat := ⟨32, by omega⟩
    Spec.Reads heapMem ⟨0, 1⟩ [0x41#8, 0x42#8] ∧ (⟨0, 1⟩ : Ptr).buf < heapMem.nbuf ∧ (Spec.base64 false true [0x41#8, 0x42#8]).length ≤ P.usizeMax / 2 ∧
    Spec.IsHexOf [0x41#8, 0x42#8] [0xab#8] := by
  refine ⟨⟨by decide, fun i h => ?_⟩, by decide, by decide, by unfold Spec.IsHexOf; decide⟩
  have : i = 0 ∨ i = 1 := by simp at h; omega
  rcases this with rfl | rfl <;> rfl

end Simd
