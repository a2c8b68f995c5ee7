import Verif.Props.Anywhere
import Verif.Lemmas.RawHeap
/-
C61: the functions that allocate their result or append to a vector, for a source anywhere in any memory.
The source may be part of a larger allocation; the other allocations may hold anything.
-/
namespace Simd

namespace Base64

/-- C61, `encode_to_boxed_str` and `encode_to_string` of base64-simd: a new allocation holding exactly the text, every older allocation as it was;
a panic if the text is longer than `usize::MAX / 2`. -/
theorem C61_encode_owned (P : Plat) {i : Option Isa} (hi : i ≠ some .sse2) {config url pad} (hv : IsVariant config url pad)
    (m : Mem) (p : Ptr) (xs : List Byte) (hr : Spec.Reads m p xs) (hp : p.buf < m.nbuf) (hx : xs.length ≤ P.isizeMax) :
    (((Spec.base64 url pad xs).length ≤ P.usizeMax / 2 →
      (∃ s m', (encode_to_boxed_str P i config ⟨p, xs.length⟩).run m = .ok s m' ∧ Spec.NewBox m m' s (Spec.base64 url pad xs) ∧ Spec.Kept m m') ∧
      ∃ v m', (encode_to_string P i config ⟨p, xs.length⟩).run m = .ok v m' ∧ Spec.NewVec m m' v (Spec.base64 url pad xs) ∧ Spec.Kept m m')) ∧
    (P.usizeMax / 2 < (Spec.base64 url pad xs).length →
      (encode_to_boxed_str P i config ⟨p, xs.length⟩).run m = .panic ∧ (encode_to_string P i config ⟨p, xs.length⟩).run m = .panic) := by
  have hf := hv.fits P hx
  rw [← hv.text]
  have h1 := (encApi hi config).boxed_any_out P hr.has hp hf
  have h2 := (encApi hi config).toString_any_out P hr.has hp hf
  exact ⟨fun h => ⟨h1.1 h, h2.1 h⟩, fun h => ⟨h1.2 h, h2.2 h⟩⟩

/-- C61, `decode_to_boxed_bytes` and `decode_to_vec` of base64-simd. -/
theorem C61_decode_owned (P : Plat) {i : Option Isa} (hi : i ≠ some .sse2) {config url pad} (hv : IsVariant config url pad)
    (m : Mem) (p : Ptr) (xs : List Byte) (hr : Spec.Reads m p xs) (hp : p.buf < m.nbuf) (hx : xs.length ≤ P.isizeMax) :
    (∀ ys, Spec.base64 url pad ys = xs →
      (∃ s m', (decode_to_boxed_bytes P i config ⟨p, xs.length⟩).run m = .ok s m' ∧ Spec.NewBox m m' s ys ∧ Spec.Kept m m') ∧
      ∃ v m', (decode_to_vec P i config ⟨p, xs.length⟩).run m = .ok v m' ∧ Spec.NewVec m m' v ys ∧ Spec.Kept m m') ∧
    ((¬ ∃ ys, Spec.base64 url pad ys = xs) →
      (∃ m', (decode_to_boxed_bytes P i config ⟨p, xs.length⟩).run m = .err m' ∧ Spec.Kept m m') ∧
      ∃ m', (decode_to_vec P i config ⟨p, xs.length⟩).run m = .err m' ∧ Spec.Kept m m') := by
  have h1 := (decApi hi config).boxed_any_out P hr.has hp hx
  have h2 := (decApi hi config).toVec_any_out P hr.has hp hx
  exact ⟨fun ys hy => ⟨h1.1 ys ((hv.full xs ys).2 hy), h2.1 ys ((hv.full xs ys).2 hy)⟩,
    fun hn => ⟨h1.2 ((hv.full_none xs).2 hn), h2.2 ((hv.full_none xs).2 hn)⟩⟩

/-- C61, `encode_append` of base64-simd: the old content followed by the text; every allocation but the vector's own is as it was.
It panics exactly when the text is longer than `usize::MAX / 2` or the vector cannot grow to hold it. -/
theorem C61_encode_append (P : Plat) (extra : Nat) {i : Option Isa} (hi : i ≠ some .sse2) {config url pad} (hv : IsVariant config url pad)
    (m : Mem) (p : Ptr) (xs : List Byte) (hr : Spec.Reads m p xs) (hp : p.buf < m.nbuf) (hx : xs.length ≤ P.isizeMax)
    (v : RVec) (prev : List Byte) (hvec : Spec.IsVec m v prev) (hne : p.buf ≠ v.buf) (hc : v.cap ≤ P.isizeMax) :
    let t := Spec.base64 url pad xs
    let fits := t.length ≤ P.usizeMax / 2 ∧ (t.length ≤ v.cap - v.len ∨ v.len + t.length + extra ≤ P.isizeMax)
    (fits → ∃ v' m', (encode_append P extra i config ⟨p, xs.length⟩ v).run m = .ok v' m' ∧ Spec.IsVec m' v' (prev ++ t) ∧
      Spec.Grown P t.length m v m' v') ∧
    (¬ fits → (encode_append P extra i config ⟨p, xs.length⟩ v).run m = .panic) := by
  have hf := hv.fits P hx
  rw [← hv.text]
  exact (encApi hi config).append_any_out P extra hr.has hp hvec hne hc hf

/-- C61, `decode_append` of base64-simd: the old content followed by the decoded bytes, or an error with the old content alone. -/
theorem C61_decode_append (P : Plat) (extra : Nat) {i : Option Isa} (hi : i ≠ some .sse2) {config url pad} (hv : IsVariant config url pad)
    (m : Mem) (p : Ptr) (xs : List Byte) (hr : Spec.Reads m p xs) (hp : p.buf < m.nbuf)
    (v : RVec) (prev : List Byte) (hvec : Spec.IsVec m v prev) (hne : p.buf ≠ v.buf) (hc : v.cap ≤ P.isizeMax)
    (hcap : xs.length ≤ v.cap - v.len ∨ v.len + xs.length + extra ≤ P.isizeMax) :
    (∀ ys, Spec.base64 url pad ys = xs → ∃ v' m', (decode_append P extra i config ⟨p, xs.length⟩ v).run m = .ok (v', .ok ()) m' ∧
      Spec.IsVec m' v' (prev ++ ys) ∧ Spec.Grown P ys.length m v m' v') ∧
    ((¬ ∃ ys, Spec.base64 url pad ys = xs) → ∃ v' m', (decode_append P extra i config ⟨p, xs.length⟩ v).run m = .ok (v', .error ()) m' ∧
      Spec.IsVec m' v' prev ∧ Spec.Grown P xs.length m v m' v') := by
  have h := (decApi hi config).append_any_out P extra hr.has hp hvec hne hc (fun n k hd => by
    have := ((decApi hi config).hle xs n k hd).1
    omega)
  exact ⟨fun ys hy => h.1 ys ((hv.full xs ys).2 hy), fun hn => h.2 ((hv.full_none xs).2 hn)⟩

/-- C61, `forgiving_decode_to_vec`: a new vector holding the bytes of the WHATWG algorithm, or an error; every older allocation as it was. -/
theorem C61_forgiving (P : Plat) (extra : Nat) (fi : Option Isa) {di : Option Isa} (hd : di ≠ some .sse2) (m : Mem) (p : Ptr) (xs : List Byte)
    (hr : Spec.Reads m p xs) (hp : p.buf < m.nbuf) (hx : xs.length + extra ≤ P.isizeMax) :
    (∀ ys, Spec.forgivingDecode xs = some ys → ∃ v m', (forgiving_decode_to_vec P extra fi di ⟨p, xs.length⟩).run m = .ok v m' ∧
      Spec.NewVec m m' v ys ∧ Spec.Kept m m') ∧
    (Spec.forgivingDecode xs = none → ∃ m', (forgiving_decode_to_vec P extra fi di ⟨p, xs.length⟩).run m = .err m' ∧ Spec.Kept m m') := by
  have hb := hr.has
  have hw : wp (forgiving_decode_to_vec P extra fi di ⟨p, xs.length⟩)
      (fun v m' => ∃ ys, Spec.forgivingDecode xs = some ys ∧ Spec.NewVec m m' v ys ∧ Spec.Kept m m')
      (fun m' => Spec.forgivingDecode xs = none ∧ Spec.Kept m m') m := by
    unfold forgiving_decode_to_vec
    rw [wp_bind]
    refine find_wp fi hb ?_
    rw [wp_bind, wp_assert]
    refine ⟨by simpa using firstWs_le xs, ?_⟩
    by_cases h : firstWs xs = xs.length
    · rw [if_pos h]
      have ht := (decApi hd STANDARD_FORGIVING).toVec_any_out P hb hp (by omega)
      have e : (decApi hd STANDARD_FORGIVING).full xs = Spec.forgivingDecode xs := by rw [full_eq, ← full_strip, stripWs_none h]
      rw [e] at ht
      unfold wp
      cases hf : Spec.forgivingDecode xs with
      | some ys =>
        obtain ⟨v, m', h1, h2, h3⟩ := ht.1 ys hf
        change (decode_to_vec P di STANDARD_FORGIVING ⟨p, xs.length⟩).run m = _ at h1
        rw [h1]
        exact ⟨ys, rfl, h2, h3⟩
      | none =>
        obtain ⟨m', h1, h3⟩ := ht.2 hf
        change (decode_to_vec P di STANDARD_FORGIVING ⟨p, xs.length⟩).run m = _ at h1
        rw [h1]
        exact ⟨rfl, h3⟩
    · rw [if_neg h, wp_bind]
      unfold vec_with_capacity
      rw [if_pos hx, wp_alloc, wp_pure', wp_bind]
      have hk := kept_alloc m (xs.length + extra)
      have hsz : (m.alloc (xs.length + extra)).size m.nbuf = xs.length + extra := by simp [Mem.alloc]
      refine wp_mono (copy_and_decode_wp hd (hk.has hp hb) (q := ⟨m.nbuf, 0⟩) (by unfold CanWrite; simp only [hsz]; omega) (.inl (by simp only; omega))) ?_ ?_
      · rintro s m' ⟨ys, hy, rfl, hbs, hso, hle⟩
        refine set_len_wp (xs := ys) hbs rfl (by simp; omega) ?_
        refine ⟨ys, hy, ⟨Nat.le_refl _, ?_, ?_, rfl, hbs⟩, hk.outside hso (Nat.le_refl _)⟩
        · rw [hso.nbuf]; exact Nat.lt_succ_self _
        · rw [hso.size]; exact hsz.symm
      · rintro m' ⟨hn, hso⟩
        exact ⟨hn, hk.outside hso (Nat.le_refl _)⟩
  rcases wp_out hw with ⟨v, m', hr, zs, hz, hb, hk⟩ | ⟨m', hr, hn, hk⟩
  · refine ⟨fun ys hy => ?_, fun hn => by rw [hn] at hz; cases hz⟩
    rw [hy] at hz; cases hz
    exact ⟨v, m', hr, hb, hk⟩
  · exact ⟨fun ys hy => (by rw [hy] at hn; cases hn), fun _ => ⟨m', hr, hk⟩⟩

end Base64

namespace Base32

/-- C61, `encode_to_boxed_str` and `encode_to_string` of base32-simd: a new allocation holding exactly the text, every older allocation as it was;
a panic if the text is longer than `usize::MAX / 2`. -/
theorem C61_encode_owned (P : Plat) (w : Bool) {i : Option Isa} (hi : Impl i) {config hex pad} (hv : IsVariant config hex pad)
    (m : Mem) (p : Ptr) (xs : List Byte) (hr : Spec.Reads m p xs) (hp : p.buf < m.nbuf) (hx : xs.length ≤ P.isizeMax) :
    (((Spec.base32 hex pad xs).length ≤ P.usizeMax / 2 →
      (∃ s m', (encode_to_boxed_str P w i config ⟨p, xs.length⟩).run m = .ok s m' ∧ Spec.NewBox m m' s (Spec.base32 hex pad xs) ∧ Spec.Kept m m') ∧
      ∃ v m', (encode_to_string P w i config ⟨p, xs.length⟩).run m = .ok v m' ∧ Spec.NewVec m m' v (Spec.base32 hex pad xs) ∧ Spec.Kept m m')) ∧
    (P.usizeMax / 2 < (Spec.base32 hex pad xs).length →
      (encode_to_boxed_str P w i config ⟨p, xs.length⟩).run m = .panic ∧ (encode_to_string P w i config ⟨p, xs.length⟩).run m = .panic) := by
  have hf := hv.fits P hx
  rw [← hv.text]
  have h1 := (encApi w hi config).boxed_any_out P hr.has hp hf
  have h2 := (encApi w hi config).toString_any_out P hr.has hp hf
  exact ⟨fun h => ⟨h1.1 h, h2.1 h⟩, fun h => ⟨h1.2 h, h2.2 h⟩⟩

/-- C61, `decode_to_boxed_bytes` and `decode_to_vec` of base32-simd. -/
theorem C61_decode_owned (P : Plat) (w : Bool) {i : Option Isa} (hi : Impl i) {config hex pad} (hv : IsVariant config hex pad)
    (m : Mem) (p : Ptr) (xs : List Byte) (hr : Spec.Reads m p xs) (hp : p.buf < m.nbuf) (hx : xs.length ≤ P.isizeMax) :
    (∀ ys, Spec.base32 hex pad ys = xs →
      (∃ s m', (decode_to_boxed_bytes P w i config ⟨p, xs.length⟩).run m = .ok s m' ∧ Spec.NewBox m m' s ys ∧ Spec.Kept m m') ∧
      ∃ v m', (decode_to_vec P w i config ⟨p, xs.length⟩).run m = .ok v m' ∧ Spec.NewVec m m' v ys ∧ Spec.Kept m m') ∧
    ((¬ ∃ ys, Spec.base32 hex pad ys = xs) →
      (∃ m', (decode_to_boxed_bytes P w i config ⟨p, xs.length⟩).run m = .err m' ∧ Spec.Kept m m') ∧
      ∃ m', (decode_to_vec P w i config ⟨p, xs.length⟩).run m = .err m' ∧ Spec.Kept m m') := by
  have h1 := (decApi w hi (j := none) (by simp) config).boxed_any_out P hr.has hp hx
  have h2 := (decApi w hi (j := none) (by simp) config).toVec_any_out P hr.has hp hx
  exact ⟨fun ys hy => ⟨h1.1 ys ((hv.full xs ys).2 hy), h2.1 ys ((hv.full xs ys).2 hy)⟩,
    fun hn => ⟨h1.2 ((hv.full_none xs).2 hn), h2.2 ((hv.full_none xs).2 hn)⟩⟩

/-- C61, `encode_append` of base32-simd: the old content followed by the text; every allocation but the vector's own is as it was.
It panics exactly when the text is longer than `usize::MAX / 2` or the vector cannot grow to hold it. -/
theorem C61_encode_append (P : Plat) (w : Bool) (extra : Nat) {i : Option Isa} (hi : Impl i) {config hex pad} (hv : IsVariant config hex pad)
    (m : Mem) (p : Ptr) (xs : List Byte) (hr : Spec.Reads m p xs) (hp : p.buf < m.nbuf) (hx : xs.length ≤ P.isizeMax)
    (v : RVec) (prev : List Byte) (hvec : Spec.IsVec m v prev) (hne : p.buf ≠ v.buf) (hc : v.cap ≤ P.isizeMax) :
    let t := Spec.base32 hex pad xs
    let fits := t.length ≤ P.usizeMax / 2 ∧ (t.length ≤ v.cap - v.len ∨ v.len + t.length + extra ≤ P.isizeMax)
    (fits → ∃ v' m', (encode_append P w extra i config ⟨p, xs.length⟩ v).run m = .ok v' m' ∧ Spec.IsVec m' v' (prev ++ t) ∧
      Spec.Grown P t.length m v m' v') ∧
    (¬ fits → (encode_append P w extra i config ⟨p, xs.length⟩ v).run m = .panic) := by
  have hf := hv.fits P hx
  rw [← hv.text]
  exact (encApi w hi config).append_any_out P extra hr.has hp hvec hne hc hf

/-- C61, `decode_append` of base32-simd: the old content followed by the decoded bytes, or an error with the old content alone. -/
theorem C61_decode_append (P : Plat) (w : Bool) (extra : Nat) {i : Option Isa} (hi : Impl i) {config hex pad} (hv : IsVariant config hex pad)
    (m : Mem) (p : Ptr) (xs : List Byte) (hr : Spec.Reads m p xs) (hp : p.buf < m.nbuf)
    (v : RVec) (prev : List Byte) (hvec : Spec.IsVec m v prev) (hne : p.buf ≠ v.buf) (hc : v.cap ≤ P.isizeMax)
    (hcap : xs.length ≤ v.cap - v.len ∨ v.len + xs.length + extra ≤ P.isizeMax) :
    (∀ ys, Spec.base32 hex pad ys = xs → ∃ v' m', (decode_append P w extra i config ⟨p, xs.length⟩ v).run m = .ok (v', .ok ()) m' ∧
      Spec.IsVec m' v' (prev ++ ys) ∧ Spec.Grown P ys.length m v m' v') ∧
    ((¬ ∃ ys, Spec.base32 hex pad ys = xs) → ∃ v' m', (decode_append P w extra i config ⟨p, xs.length⟩ v).run m = .ok (v', .error ()) m' ∧
      Spec.IsVec m' v' prev ∧ Spec.Grown P xs.length m v m' v') := by
  have h := (decApi w hi (j := none) (by simp) config).append_any_out P extra hr.has hp hvec hne hc (fun n k hd => by
    have := ((decApi w hi (j := none) (by simp) config).hle xs n k hd).1
    omega)
  exact ⟨fun ys hy => h.1 ys ((hv.full xs ys).2 hy), fun hn => h.2 ((hv.full_none xs).2 hn)⟩

end Base32

namespace Hex

/-- The hexadecimal encoder as an `EncApi`. -/
def encApi (i : Option Isa) (case : AsciiCase) : EncApi where
  elen n := 2 * n
  L P n := P.mulU n 2
  body p n q := encode_auto i p n q case
  enc := hexEnc case
  hL P n h := by rw [Plat.mulU, if_pos (by omega), Nat.mul_comm]
  hlen xs := by rw [hexEnc_spec, hexEncode_length]
  hnil := rfl
  hpos n h := by omega
  hbody m p q xs hx hw ha := encode_auto_spec i case hx rfl hw ha

/-- C61, `encode_to_boxed_str` and `encode_to_string` of hex-simd. -/
theorem C61_encode_owned (P : Plat) (i : Option Isa) (case : AsciiCase) (m : Mem) (p : Ptr) (xs : List Byte) (hr : Spec.Reads m p xs) (hp : p.buf < m.nbuf)
    (hx : xs.length ≤ P.isizeMax) :
    let t := Spec.hexEncode (case == .upper) xs
    (t.length ≤ P.usizeMax / 2 →
      (∃ s m', (encode_to_boxed_str P i ⟨p, xs.length⟩ case).run m = .ok s m' ∧ Spec.NewBox m m' s t ∧ Spec.Kept m m') ∧
      ∃ v m', (encode_to_string P i ⟨p, xs.length⟩ case).run m = .ok v m' ∧ Spec.NewVec m m' v t ∧ Spec.Kept m m') ∧
    (P.usizeMax / 2 < t.length →
      (encode_to_boxed_str P i ⟨p, xs.length⟩ case).run m = .panic ∧ (encode_to_string P i ⟨p, xs.length⟩ case).run m = .panic) := by
  intro t
  have hu := isizeMax_le P
  have e : t = (encApi i case).enc xs := (hexEnc_spec case xs).symm
  have hf : ((encApi i case).enc xs).length ≤ P.usizeMax := by
    rw [(encApi i case).hlen]
    show 2 * xs.length ≤ _
    omega
  rw [e]
  have h1 := (encApi i case).boxed_any_out P hr.has hp hf
  have h2 := (encApi i case).toString_any_out P hr.has hp hf
  exact ⟨fun h => ⟨h1.1 h, h2.1 h⟩, fun h => ⟨h1.2 h, h2.2 h⟩⟩

/-- C61, `encode_append` of hex-simd. -/
theorem C61_encode_append (P : Plat) (extra : Nat) (i : Option Isa) (case : AsciiCase) (m : Mem) (p : Ptr) (xs : List Byte) (hr : Spec.Reads m p xs)
    (hp : p.buf < m.nbuf) (hx : xs.length ≤ P.isizeMax) (v : RVec) (prev : List Byte) (hvec : Spec.IsVec m v prev) (hne : p.buf ≠ v.buf)
    (hc : v.cap ≤ P.isizeMax) :
    let t := Spec.hexEncode (case == .upper) xs
    let fits := t.length ≤ P.usizeMax / 2 ∧ (t.length ≤ v.cap - v.len ∨ v.len + t.length + extra ≤ P.isizeMax)
    (fits → ∃ v' m', (encode_append P extra i ⟨p, xs.length⟩ v case).run m = .ok v' m' ∧ Spec.IsVec m' v' (prev ++ t) ∧ Spec.Grown P t.length m v m' v') ∧
    (¬ fits → (encode_append P extra i ⟨p, xs.length⟩ v case).run m = .panic) := by
  intro t
  have hu := isizeMax_le P
  have e : t = (encApi i case).enc xs := (hexEnc_spec case xs).symm
  have hf : ((encApi i case).enc xs).length ≤ P.usizeMax := by
    rw [(encApi i case).hlen]
    show 2 * xs.length ≤ _
    omega
  rw [e]
  exact (encApi i case).append_any_out P extra hr.has hp hvec hne hc hf

theorem hexDec_none {xs : List Byte} (he : xs.length % 2 = 0) (h : hexDec xs = none) : ¬ ∃ ys, Spec.IsHexOf xs ys := by
  rintro ⟨ys, hy⟩
  rw [(hexDec_spec xs ys he).2 hy] at h
  cases h

/-- C61, `decode_to_boxed_bytes` and `decode_to_vec` of hex-simd. -/
theorem C61_decode_owned (P : Plat) (i : Option Isa) (m : Mem) (p : Ptr) (xs : List Byte) (hr : Spec.Reads m p xs) (hp : p.buf < m.nbuf)
    (hx : xs.length ≤ P.isizeMax) :
    (∀ ys, Spec.IsHexOf xs ys →
      (∃ s m', (decode_to_boxed_bytes P i ⟨p, xs.length⟩).run m = .ok s m' ∧ Spec.NewBox m m' s ys ∧ Spec.Kept m m') ∧
      ∃ v m', (decode_to_vec P i ⟨p, xs.length⟩).run m = .ok v m' ∧ Spec.NewVec m m' v ys ∧ Spec.Kept m m') ∧
    ((¬ ∃ ys, Spec.IsHexOf xs ys) →
      (∃ m', (decode_to_boxed_bytes P i ⟨p, xs.length⟩).run m = .err m' ∧ Spec.Kept m m') ∧
      ∃ m', (decode_to_vec P i ⟨p, xs.length⟩).run m = .err m' ∧ Spec.Kept m m') := by
  have hb : wp (decode_to_boxed_bytes P i ⟨p, xs.length⟩) (fun s m' => ∃ ys, Spec.IsHexOf xs ys ∧ Spec.NewBox m m' s ys ∧ Spec.Kept m m')
      (fun m' => (¬ ∃ ys, Spec.IsHexOf xs ys) ∧ Spec.Kept m m') m := by
    unfold decode_to_boxed_bytes
    simp only
    by_cases h0 : xs = []
    · subst h0
      rw [if_pos List.length_nil]
      exact wp_mono box_empty_wp (fun s m' h => ⟨[], rfl, h⟩) (fun _ h => h.elim)
    · have hpos : 0 < xs.length := List.length_pos_iff.2 h0
      rw [if_neg (by omega)]
      by_cases he : xs.length % 2 = 0
      · rw [show (ensure (xs.length % 2 == 0) : Prog Unit) = pure () by rw [he]; rfl, prog_pure_bind]
        refine wp_mono (boxed_any (P := P) (n := xs.length / 2) (xs := xs) (spec := hexDec) (body := fun q => decode_auto i p xs.length q)
          (by omega) (by omega) hp hr.has (fun m q hx hw hd => by
            have := decode_auto_spec i (k := xs.length / 2) hx (by omega) hw (.inl hd)
            rwa [show 2 * (xs.length / 2) = xs.length by omega] at this)) ?_ ?_
        · rintro s m' ⟨ys, hy, h⟩
          exact ⟨ys, (hexDec_spec xs ys he).1 hy, h⟩
        · rintro m' ⟨hn, h⟩
          exact ⟨hexDec_none he hn, h⟩
      · rw [show (ensure (xs.length % 2 == 0) : Prog Unit) = .err by rw [show (xs.length % 2 == 0) = false by simp; omega]; rfl]
        refine ⟨?_, .refl m⟩
        rintro ⟨ys, hy⟩
        have := isHexOf_length hy
        omega
  rcases wp_out hb with ⟨s, m', h1, zs, hz, hb, hk⟩ | ⟨m', h1, hn, hk⟩
  · refine ⟨fun ys hy => ?_, fun hn => (hn ⟨zs, hz⟩).elim⟩
    cases isHexOf_unique hz hy
    exact ⟨⟨s, m', h1, hb, hk⟩, _, m', by unfold decode_to_vec; rw [run_bind, h1]; rfl, hb.vec, hk⟩
  · exact ⟨fun ys hy => (hn ⟨ys, hy⟩).elim, fun _ => ⟨⟨m', h1, hk⟩, m', by unfold decode_to_vec; rw [run_bind, h1], hk⟩⟩

/-- C61, `decode_append` of hex-simd. -/
theorem C61_decode_append (P : Plat) (extra : Nat) (i : Option Isa) (m : Mem) (p : Ptr) (xs : List Byte) (hr : Spec.Reads m p xs) (hp : p.buf < m.nbuf)
    (v : RVec) (prev : List Byte) (hvec : Spec.IsVec m v prev) (hne : p.buf ≠ v.buf) (hc : v.cap ≤ P.isizeMax)
    (hcap : xs.length / 2 ≤ v.cap - v.len ∨ v.len + xs.length / 2 + extra ≤ P.isizeMax) :
    (∀ ys, Spec.IsHexOf xs ys → ∃ v' m', (decode_append P extra i ⟨p, xs.length⟩ v).run m = .ok (v', .ok ()) m' ∧
      Spec.IsVec m' v' (prev ++ ys) ∧ Spec.Grown P ys.length m v m' v') ∧
    ((¬ ∃ ys, Spec.IsHexOf xs ys) → ∃ v' m', (decode_append P extra i ⟨p, xs.length⟩ v).run m = .ok (v', .error ()) m' ∧
      Spec.IsVec m' v' prev ∧ Spec.Grown P xs.length m v m' v') := by
  have hb : wp (decode_append P extra i ⟨p, xs.length⟩ v)
      (fun r m' => (∃ ys, Spec.IsHexOf xs ys ∧ r.2 = .ok () ∧ Spec.IsVec m' r.1 (prev ++ ys) ∧ Spec.Grown P ys.length m v m' r.1) ∨
        ((¬ ∃ ys, Spec.IsHexOf xs ys) ∧ r.2 = .error () ∧ Spec.IsVec m' r.1 prev ∧ Spec.Grown P xs.length m v m' r.1)) (fun _ => False) m := by
    unfold decode_append decode_append_vec
    simp only
    by_cases h0 : xs = []
    · subst h0
      rw [if_pos List.length_nil]
      exact .inl ⟨[], rfl, rfl, by rw [List.append_nil]; exact hvec, .refl P _ m v⟩
    · have hpos : 0 < xs.length := List.length_pos_iff.2 h0
      rw [if_neg (by omega)]
      by_cases he : xs.length % 2 = 0
      · rw [if_pos he]
        refine wp_mono (append_any (P := P) (extra := extra) (n := xs.length / 2) (spec := hexDec) (body := fun q => decode_auto i p xs.length q)
          hvec.is hr.has hne hp hcap hc (fun m q hx hw hd => by
            have := decode_auto_spec i (k := xs.length / 2) hx (by omega) hw (.inl hd)
            rwa [show 2 * (xs.length / 2) = xs.length by omega] at this)) ?_ (fun _ h => h)
        rintro r m' (⟨ys, hy, h⟩ | ⟨hn, h⟩)
        · exact .inl ⟨ys, (hexDec_spec xs ys he).1 hy, h⟩
        · exact .inr ⟨hexDec_none he hn, h.1, h.2.1, h.2.2.mono (by omega)⟩
      · rw [if_neg he]
        refine .inr ⟨?_, rfl, hvec, .refl P _ m v⟩
        rintro ⟨ys, hy⟩
        have := isHexOf_length hy
        omega
  rcases wp_out hb with ⟨⟨v', e⟩, m', h1, hq⟩ | ⟨_, _, h⟩
  · rcases hq with ⟨zs, hz, he, hb, hk⟩ | ⟨hn, he, hb, hk⟩ <;> simp only at he <;> subst he
    · refine ⟨fun ys hy => ?_, fun hn => (hn ⟨zs, hz⟩).elim⟩
      cases isHexOf_unique hz hy
      exact ⟨v', m', h1, hb, hk⟩
    · exact ⟨fun ys hy => (hn ⟨ys, hy⟩).elim, fun _ => ⟨v', m', h1, hb, hk⟩⟩
  · exact h.elim

end Hex

/-- Two allocations: a source "AB" at offset 1 between uninitialised bytes, and a vector "x" with capacity 3. -/
def heapMem : Mem := Mem.ofBufs [[none, some 0x41#8, some 0x42#8, none], [some 0x78#8, none, none]]

example : let P : Plat := ⟨64, by omega⟩
    Spec.Reads heapMem ⟨0, 1⟩ [0x41#8, 0x42#8] ∧ (⟨0, 1⟩ : Ptr).buf < heapMem.nbuf ∧ Spec.IsVec heapMem ⟨1, 1, 3⟩ [0x78#8] ∧
    (⟨1, 1, 3⟩ : RVec).cap ≤ P.isizeMax ∧ (⟨0, 1⟩ : Ptr).buf ≠ (⟨1, 1, 3⟩ : RVec).buf ∧
    (Spec.hexEncode false [0x41#8, 0x42#8]).length ≤ P.usizeMax / 2 ∧ 1 + (Spec.hexEncode false [0x41#8, 0x42#8]).length + 8 ≤ P.isizeMax := by
  refine ⟨⟨by decide, ?_⟩, by decide, ⟨by decide, by decide, by decide, by decide, ?_⟩, by decide, by decide, by decide, by decide⟩
  · intro i h
    have : i = 0 ∨ i = 1 := by simp at h; omega
    rcases this with rfl | rfl <;> rfl
  · intro i h
    have : i = 0 := by simp at h; omega
    subst this; rfl

end Simd
