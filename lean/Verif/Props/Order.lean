import Verif.Props.AnywhereHeap
import Verif.Lemmas.Order
/-
C64: which encodings keep the order of the data (RFC 4648, section 7, for base32hex), on the strings returned by `encode_to_string`.
-/
namespace Simd

/-- `p` is a slice with contents `xs` in an allocation of `m`, of a size Rust allows. -/
def IsInput (P : Plat) (m : Mem) (p : Ptr) (xs : List Byte) : Prop := Spec.Reads m p xs ∧ p.buf < m.nbuf ∧ xs.length ≤ P.isizeMax

theorem reads_unique {m : Mem} {p : Ptr} {xs ys : List Byte} (hx : Spec.Reads m p xs) (hy : Spec.Reads m p ys) (hl : xs.length = ys.length) : xs = ys := by
  apply List.ext_getElem hl
  intro i h1 h2
  exact Option.some.inj ((hx.2 i h1).symm.trans (hy.2 i h2))

theorem isVec_unique {m : Mem} {v : RVec} {xs ys : List Byte} (hx : Spec.IsVec m v xs) (hy : Spec.IsVec m v ys) : xs = ys :=
  reads_unique hx.2.2.2 hy.2.2.2 (hx.2.2.1.symm.trans hy.2.2.1)

/-- The string a successful run returned is the only one its postcondition allows. -/
theorem text_of_run {x : Prog RVec} {m m' : Mem} {v : RVec} {t t' : List Byte} {L : Nat} (h : x.run m = .ok v m') (hv : Spec.IsVec m' v t)
    (h1 : t'.length ≤ L → ∃ v m', x.run m = .ok v m' ∧ Spec.NewVec m m' v t' ∧ Spec.Kept m m') (h2 : L < t'.length → x.run m = .panic) : t = t' := by
  by_cases hl : t'.length ≤ L
  · obtain ⟨v', m'', h3, h4, -⟩ := h1 hl
    rw [h] at h3
    cases h3
    exact isVec_unique hv h4.2
  · rw [h2 (by omega)] at h; cases h

namespace Hex

theorem text_to_string {P : Plat} {i : Option Isa} {case : AsciiCase} {m m' : Mem} {p : Ptr} {xs : List Byte} {v : RVec} {t : List Byte}
    (hi : IsInput P m p xs) (h : (encode_to_string P i ⟨p, xs.length⟩ case).run m = .ok v m') (hv : Spec.IsVec m' v t) :
    t = Spec.hexEncode (case == .upper) xs := by
  have := C61_encode_owned P i case m p xs hi.1 hi.2.1 hi.2.2
  exact text_of_run h hv (fun hl => (this.1 hl).2) fun hl => (this.2 hl).2

theorem digit_mono (upper : Bool) : ∀ u v, u < v → v < 16 → (Spec.hexDigit upper u).toNat < (Spec.hexDigit upper v).toNat := by
  have h : ∀ v, v < 16 → ∀ u, u < v → (Spec.hexDigit upper u).toNat < (Spec.hexDigit upper v).toNat := by
    cases upper <;> decide
  exact fun u v huv hv => h v hv u huv

theorem hexEncode_before (upper : Bool) : ∀ {a b : List Byte}, Spec.Before a b → Spec.Before (Spec.hexEncode upper a) (Spec.hexEncode upper b)
  | [], [], h => False.elim h
  | _ :: _, [], h => False.elim h
  | [], y :: ys, _ => by simp [Spec.hexEncode, Spec.Before]
  | x :: xs, y :: ys, h => by
    have ih := fun h => @hexEncode_before upper xs ys h
    simp only [Spec.hexEncode, List.flatMap_cons, List.cons_append, List.nil_append, Spec.Before] at h ih ⊢
    rcases h with h | ⟨rfl, h⟩
    · have hx := x.isLt
      have hy := y.isLt
      by_cases hd : x.toNat / 16 = y.toNat / 16
      · exact .inr ⟨by rw [hd], .inl (digit_mono upper _ _ (by omega) (by omega))⟩
      · exact .inl (digit_mono upper _ _ (by omega) (by omega))
    · exact .inr ⟨rfl, .inr ⟨rfl, ih h⟩⟩

/-- C64, hex: of two strings returned by `encode_to_string` with the same case, possibly by different implementations, one comes before
the other exactly if the data do. -/
theorem C64_encode (P : Plat) (i j : Option Isa) (case : AsciiCase) {m n m' n' : Mem} {p q : Ptr} {xs ys : List Byte} {v w : RVec} {t u : List Byte}
    (hx : IsInput P m p xs) (hy : IsInput P n q ys)
    (h1 : (encode_to_string P i ⟨p, xs.length⟩ case).run m = .ok v m') (h2 : (encode_to_string P j ⟨q, ys.length⟩ case).run n = .ok w n')
    (ht : Spec.IsVec m' v t) (hu : Spec.IsVec n' w u) : Spec.Before t u ↔ Spec.Before xs ys := by
  rw [text_to_string hx h1 ht, text_to_string hy h2 hu]
  exact before_iff_of_mono (fun a b => hexEncode_before _) xs ys

end Hex

namespace Base32

theorem text_to_string {P : Plat} {w : Bool} {i : Option Isa} (hi : Impl i) {config hex pad} (hv : IsVariant config hex pad) {m m' : Mem} {p : Ptr}
    {xs : List Byte} {v : RVec} {t : List Byte} (hx : IsInput P m p xs) (h : (encode_to_string P w i config ⟨p, xs.length⟩).run m = .ok v m')
    (ht : Spec.IsVec m' v t) : t = Spec.base32 hex pad xs := by
  have := C61_encode_owned P w hi hv m p xs hx.1 hx.2.1 hx.2.2
  exact text_of_run h ht (fun hl => (this.1 hl).2) fun hl => (this.2 hl).2

theorem char_mono : ∀ u v, u < v → v < 2 ^ 5 → (Spec.base32Char true u).toNat < (Spec.base32Char true v).toNat := by
  have h : ∀ v, v < 32 → ∀ u, u < v → (Spec.base32Char true u).toNat < (Spec.base32Char true v).toNat := by decide +kernel
  exact fun u v huv hv => h v hv u huv

/-- C64, base32hex without padding: the strings are in the order of the data. -/
theorem C64_encode (P : Plat) (c : Bool) {i j : Option Isa} (hi : Impl i) (hj : Impl j) {config} (hv : IsVariant config true false) {m n m' n' : Mem}
    {p q : Ptr} {xs ys : List Byte} {v w : RVec} {t u : List Byte} (hx : IsInput P m p xs) (hy : IsInput P n q ys)
    (h1 : (encode_to_string P c i config ⟨p, xs.length⟩).run m = .ok v m') (h2 : (encode_to_string P c j config ⟨q, ys.length⟩).run n = .ok w n')
    (ht : Spec.IsVec m' v t) (hu : Spec.IsVec n' w u) : Spec.Before t u ↔ Spec.Before xs ys := by
  rw [text_to_string hi hv hx h1 ht, text_to_string hj hv hy h2 hu]
  exact before_iff_of_mono (f := Spec.base32 true false) (fun a b => baseText_before (by decide) (by decide) char_mono) xs ys

/-- C64, base32hex with padding: not so, as `=` comes after the digits. -/
theorem C64_padded (P : Plat) (c : Bool) {i j : Option Isa} (hi : Impl i) (hj : Impl j) {config} (hv : IsVariant config true true) {m n m' n' : Mem}
    {p q : Ptr} {v w : RVec} {t u : List Byte} (hx : IsInput P m p [0x00#8]) (hy : IsInput P n q [0x00#8, 0x00#8])
    (h1 : (encode_to_string P c i config ⟨p, 1⟩).run m = .ok v m') (h2 : (encode_to_string P c j config ⟨q, 2⟩).run n = .ok w n')
    (ht : Spec.IsVec m' v t) (hu : Spec.IsVec n' w u) : Spec.Before [0x00#8] [0x00#8, 0x00#8] ∧ Spec.Before u t := by
  rw [text_to_string hi hv hx h1 ht, text_to_string hj hv hy h2 hu,
    show Spec.base32 true true [0x00#8] = [0x30#8, 0x30#8, 0x3d#8, 0x3d#8, 0x3d#8, 0x3d#8, 0x3d#8, 0x3d#8] by decide +kernel,
    show Spec.base32 true true [0x00#8, 0x00#8] = [0x30#8, 0x30#8, 0x30#8, 0x30#8, 0x3d#8, 0x3d#8, 0x3d#8, 0x3d#8] by decide +kernel]
  simp [Spec.Before]

/-- C64, base32 with the standard alphabet: not so, as the values from 26 on are written by digits. -/
theorem C64_standard (P : Plat) (c : Bool) {i j : Option Isa} (hi : Impl i) (hj : Impl j) {config pad} (hv : IsVariant config false pad) {m n m' n' : Mem}
    {p q : Ptr} {v w : RVec} {t u : List Byte} (hx : IsInput P m p [0x00#8]) (hy : IsInput P n q [0xd0#8])
    (h1 : (encode_to_string P c i config ⟨p, 1⟩).run m = .ok v m') (h2 : (encode_to_string P c j config ⟨q, 1⟩).run n = .ok w n')
    (ht : Spec.IsVec m' v t) (hu : Spec.IsVec n' w u) : Spec.Before [0x00#8] [0xd0#8] ∧ Spec.Before u t := by
  rw [text_to_string hi hv hx h1 ht, text_to_string hj hv hy h2 hu]
  have e1 : (Spec.base32 false pad [0x00#8]).head? = some 0x41#8 := by cases pad <;> decide +kernel
  have e2 : (Spec.base32 false pad [0xd0#8]).head? = some 0x32#8 := by cases pad <;> decide +kernel
  match h3 : Spec.base32 false pad [0x00#8], h4 : Spec.base32 false pad [0xd0#8] with
  | [], _ => rw [h3] at e1; cases e1
  | _ :: _, [] => rw [h4] at e2; cases e2
  | a :: as, b :: bs =>
    rw [h3] at e1; rw [h4] at e2
    cases e1; cases e2
    simp [Spec.Before]

end Base32

namespace Base64

theorem text_to_string {P : Plat} {i : Option Isa} (hi : i ≠ some .sse2) {config url pad} (hv : IsVariant config url pad) {m m' : Mem} {p : Ptr}
    {xs : List Byte} {v : RVec} {t : List Byte} (hx : IsInput P m p xs) (h : (encode_to_string P i config ⟨p, xs.length⟩).run m = .ok v m')
    (ht : Spec.IsVec m' v t) : t = Spec.base64 url pad xs := by
  have := C61_encode_owned P hi hv m p xs hx.1 hx.2.1 hx.2.2
  exact text_of_run h ht (fun hl => (this.1 hl).2) fun hl => (this.2 hl).2

/-- C64, base64: no variant keeps the order. -/
theorem C64_not_ordered (P : Plat) {i j : Option Isa} (hi : i ≠ some .sse2) (hj : j ≠ some .sse2) {config url pad} (hv : IsVariant config url pad)
    {m n m' n' : Mem} {p q : Ptr} {v w : RVec} {t u : List Byte} (hx : IsInput P m p [0x00#8]) (hy : IsInput P n q [0xd0#8])
    (h1 : (encode_to_string P i config ⟨p, 1⟩).run m = .ok v m') (h2 : (encode_to_string P j config ⟨q, 1⟩).run n = .ok w n')
    (ht : Spec.IsVec m' v t) (hu : Spec.IsVec n' w u) : Spec.Before [0x00#8] [0xd0#8] ∧ Spec.Before u t := by
  rw [text_to_string hi hv hx h1 ht, text_to_string hj hv hy h2 hu]
  have e1 : (Spec.base64 url pad [0x00#8]).head? = some 0x41#8 := by cases url <;> cases pad <;> decide +kernel
  have e2 : (Spec.base64 url pad [0xd0#8]).head? = some 0x30#8 := by cases url <;> cases pad <;> decide +kernel
  match h3 : Spec.base64 url pad [0x00#8], h4 : Spec.base64 url pad [0xd0#8] with
  | [], _ => rw [h3] at e1; cases e1
  | _ :: _, [] => rw [h4] at e2; cases e2
  | a :: as, b :: bs =>
    rw [h3] at e1; rw [h4] at e2
    cases e1; cases e2
    simp [Spec.Before]

end Base64

/-! ### Examples -/

/-- Runs as in the theorems exist: `encode_to_string` succeeds on every such slice if the text is small enough. -/
example (P : Plat) (i : Option Isa) (m : Mem) (p : Ptr) (xs : List Byte) (h : IsInput P m p xs) (hl : 2 * xs.length ≤ P.usizeMax / 2) :
    ∃ v m', (Hex.encode_to_string P i ⟨p, xs.length⟩ .lower).run m = .ok v m' ∧ Spec.IsVec m' v (Spec.hexEncode false xs) := by
  obtain ⟨v, m', h1, h2, -⟩ := ((Hex.C61_encode_owned P i .lower m p xs h.1 h.2.1 h.2.2).1 (by rw [Hex.hexEncode_length]; omega)).2
  exact ⟨v, m', h1, h2.2⟩

example : IsInput ⟨32, by decide⟩ ⟨1, fun _ => 4, fun _ i => some (BitVec.ofNat 8 i)⟩ ⟨0, 1⟩ [1#8, 2#8] := by
  refine ⟨⟨by decide, fun i h => ?_⟩, by decide, by decide⟩
  have : i = 0 ∨ i = 1 := by simp at h; omega
  rcases this with rfl | rfl <;> rfl

example : Spec.Before [0x07#8, 0xff#8] [0x08#8] ∧ Spec.Before [0x07#8] [0x07#8, 0x00#8] ∧ ¬ Spec.Before [0x07#8, 0x00#8] [0x07#8] := by
  simp [Spec.Before]

end Simd
