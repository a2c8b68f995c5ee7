import Verif.Lemmas.Base32Api
import Verif.Spec.Utf8
/-
base32-simd: properties C19-C28.

Conventions. `i : Option Isa` is the implementation the dispatcher picked (`none` = scalar fallback). The theorems
hold for every `i` with `Impl i`, that is, all but bare SSE2 and SSSE3 for encoding and decoding, and all but bare SSE2
for checking; the crate does not dispatch to those (`targets_ok`). `w : Bool` says whether the target architecture is
wasm32, where the scalar code takes other branches. The source slice is buffer 0 and the destination slice is
buffer 1, each slice being a whole allocation, so any access outside a slice is undefined behaviour.
`ds : List Cell` is the previous content of the destination, possibly uninitialised.
A statement `run … = .ok …` or `= .err …` in particular says: no panic, no undefined behaviour.
`xs.length ≤ P.isizeMax` holds for every Rust slice.
-/
namespace Simd
namespace Base32
open Vs

/-- The public variants and what they mean: the extended-hex alphabet or not, padding or not. -/
def IsVariant (config : Config) (hex pad : Bool) : Prop :=
  (config = BASE32 ∧ hex = false ∧ pad = true) ∨ (config = BASE32HEX ∧ hex = true ∧ pad = true) ∨
  (config = BASE32_NO_PAD ∧ hex = false ∧ pad = false) ∨ (config = BASE32HEX_NO_PAD ∧ hex = true ∧ pad = false)

theorem IsVariant.text {config hex pad} (h : IsVariant config hex pad) (xs) : text config xs = Spec.base32 hex pad xs := by
  rcases h with ⟨rfl, rfl, rfl⟩ | ⟨rfl, rfl, rfl⟩ | ⟨rfl, rfl, rfl⟩ | ⟨rfl, rfl, rfl⟩ <;> rfl

theorem IsVariant.full {config hex pad} (h : IsVariant config hex pad) (xs ys) : full config xs = some ys ↔ Spec.base32 hex pad ys = xs := by
  rw [← h.text]
  exact full_iff ..

theorem IsVariant.full_none {config hex pad} (h : IsVariant config hex pad) (xs) : Base32.full config xs = none ↔ ¬ ∃ ys, Spec.base32 hex pad ys = xs := by
  constructor
  · rintro hn ⟨ys, hy⟩
    rw [(h.full xs ys).2 hy] at hn; cases hn
  · intro hn
    cases hf : Base32.full config xs with
    | none => rfl
    | some ys => exact (hn ⟨ys, (h.full xs ys).1 hf⟩).elim

theorem IsVariant.fits {config hex pad} (_ : IsVariant config hex pad) (P : Plat) {xs : List Byte} (hx : xs.length ≤ P.isizeMax) :
    (Base32.text config xs).length ≤ P.usizeMax := by
  have hu := isizeMax_le P
  rw [text_length]; exact encLen_fits P _ _ (by omega)

/-- Every implementation the crate dispatches to is covered by the theorems. -/
theorem targets_ok : Impl none ∧ (∀ s ∈ targets, Impl (some s)) ∧ (none : Option Isa) ≠ some .sse2 ∧ ∀ s ∈ check_targets, (some s : Option Isa) ≠ some .sse2 := by
  refine ⟨fun s h => (by cases h), ?_, by simp, by decide⟩
  have : ∀ s ∈ targets, s ≠ .sse2 ∧ s ≠ .ssse3 := by decide
  rintro s hs s' h
  cases h; exact this s hs

/-! ### Encoding -/

/-- C19: `encode` writes exactly the RFC 4648 text, returns exactly it, and keeps the rest of the destination. -/
theorem C19_encode (P : Plat) (w : Bool) {i : Option Isa} (hi : Impl i) {config hex pad} (hv : IsVariant config hex pad)
    (xs : List Byte) (ds : List Cell) (hx : xs.length ≤ P.isizeMax) (h : (Spec.base32 hex pad xs).length ≤ ds.length) :
    (encode P w i config (whole 0 xs.length) (whole 1 ds.length)).run (Mem.ofBufs [xs.map some, ds]) =
      .ok (whole 1 (Spec.base32 hex pad xs).length)
        (Mem.ofBufs [xs.map some, (Spec.base32 hex pad xs).map some ++ ds.drop (Spec.base32 hex pad xs).length]) := by
  have := hv.fits P hx
  rw [← hv.text] at h ⊢
  exact (encApi w hi config).encode_ok P xs ds h this

example : IsVariant BASE32HEX true true ∧
    Spec.base32 true true [0xff#8, 0x01#8] = [0x56#8, 0x53#8, 0x30#8, 0x47#8, 0x3d#8, 0x3d#8, 0x3d#8, 0x3d#8] ∧
    (Spec.base32 true true [0xff#8, 0x01#8]).length ≤ (List.replicate 9 (none : Cell)).length := by
  refine ⟨.inr (.inl ⟨rfl, rfl, rfl⟩), ?_⟩; decide

/-- C26: `encoded_length(n)` is the length of the encoding of every `n` bytes; it does not overflow for `n <= usize::MAX / 2`. -/
theorem C26_encoded_length (P : Plat) {config hex pad} (hv : IsVariant config hex pad) (n : Nat) :
    (n ≤ P.usizeMax / 2 → ∃ k, encoded_length P config n = some k ∧ ∀ xs : List Byte, xs.length = n → (Spec.base32 hex pad xs).length = k) ∧
    (P.usizeMax / 2 < n → encoded_length P config n = none) := by
  unfold encoded_length
  constructor
  · intro h
    rw [if_pos h]
    refine ⟨_, encoded_length_unchecked_eq P n _ (encLen_fits P _ _ h), ?_⟩
    rintro xs rfl
    rw [← hv.text, text_length]
  · intro h
    rw [if_neg (by omega)]

theorem encoded_length_eq (P : Plat) {config hex pad} (hv : IsVariant config hex pad) (xs : List Byte) (hx : xs.length ≤ P.isizeMax) :
    encoded_length P config xs.length = some (Spec.base32 hex pad xs).length := by
  have hu := isizeMax_le P
  obtain ⟨k, h1, h2⟩ := (C26_encoded_length P hv xs.length).1 (by omega)
  rw [h1, h2 xs rfl]

/-- C20: `encode` fails iff the destination is shorter than `encoded_length(src.len())`, and then changes nothing;
otherwise the returned prefix of that length is initialised and the rest of the destination is kept. -/
theorem C20_encode_contract (P : Plat) (w : Bool) {i : Option Isa} (hi : Impl i) {config hex pad} (hv : IsVariant config hex pad)
    (xs : List Byte) (ds : List Cell) (hx : xs.length ≤ P.isizeMax) :
    let out := (encode P w i config (whole 0 xs.length) (whole 1 ds.length)).run (Mem.ofBufs [xs.map some, ds])
    ∃ k, encoded_length P config xs.length = some k ∧
      (ds.length < k → out = .err (Mem.ofBufs [xs.map some, ds])) ∧
      (k ≤ ds.length → ∃ new : List Byte, new.length = k ∧ out = .ok (whole 1 k) (Mem.ofBufs [xs.map some, new.map some ++ ds.drop k])) := by
  refine ⟨_, encoded_length_eq P hv xs hx, ?_, fun h => ⟨_, rfl, C19_encode P w hi hv xs ds hx h⟩⟩
  intro h
  rw [← hv.text] at h
  exact (encApi w hi config).encode_err P xs ds h (hv.fits P hx)

example : ([none, none, none] : List Cell).length < (Spec.base32 false true [1#8]).length := by decide

/-! ### Decoding -/

/-- C22 and C23, success: the encoding of `ys` decodes to exactly `ys`; the rest of the destination is kept. -/
theorem C23_decode_ok (w : Bool) {i : Option Isa} (hi : Impl i) {config hex pad} (hv : IsVariant config hex pad) (ys : List Byte) (ds : List Cell)
    (h : ys.length ≤ ds.length) :
    let xs := Spec.base32 hex pad ys
    (decode w i config (whole 0 xs.length) (whole 1 ds.length)).run (Mem.ofBufs [xs.map some, ds]) =
      .ok (whole 1 ys.length) (Mem.ofBufs [xs.map some, ys.map some ++ ds.drop ys.length]) :=
  (decApi w hi (j := none) (by simp) config).decode_ok ds ((hv.full _ ys).2 rfl) h

/-- C23, failure: a text that is not an encoding is rejected, as is every text if the destination is shorter than `decoded_length`.
Nothing behind the first `decoded_length` bytes of the destination is changed, and nothing at all if there is no decoded
length or the destination is too short. -/
theorem C23_decode_err (w : Bool) {i : Option Isa} (hi : Impl i) {config hex pad} (hv : IsVariant config hex pad) (xs : List Byte) (ds : List Cell)
    (h : (¬ ∃ ys, Spec.base32 hex pad ys = xs) ∨
      ∃ k m', (decoded_length_pub config (whole 0 xs.length)).run (Mem.ofBufs [xs.map some]) = .ok k m' ∧ ds.length < k) :
    ∃ ds', (decode w i config (whole 0 xs.length) (whole 1 ds.length)).run (Mem.ofBufs [xs.map some, ds]) = .err (Mem.ofBufs [xs.map some, ds']) ∧
      ds'.length = ds.length ∧
      (∀ m', (decoded_length_pub config (whole 0 xs.length)).run (Mem.ofBufs [xs.map some]) = .err m' → ds' = ds) ∧
      ∀ k m', (decoded_length_pub config (whole 0 xs.length)).run (Mem.ofBufs [xs.map some]) = .ok k m' →
        ds'.drop k = ds.drop k ∧ (ds.length < k → ds' = ds) := by
  have hj : (none : Option Isa) ≠ some .sse2 := by simp
  have hl := (decApi w hi hj config).length_run xs
  rw [show (decApi w hi hj config).lengthFn (whole 0 xs.length) = decoded_length_pub config (whole 0 xs.length) from rfl] at hl
  cases hd : (decApi w hi hj config).dlen xs with
  | none =>
    rw [hd] at hl
    obtain ⟨ds', h1, h2, h3, -⟩ := (decApi w hi hj config).decode_err (xs := xs) ds (.inl (by rw [DecApi.full, hd]; rfl))
    exact ⟨ds', h1, h2, fun _ _ => h3 hd, fun k m' hk => (by rw [hl] at hk; cases hk)⟩
  | some r =>
    obtain ⟨n, k⟩ := r
    rw [hd] at hl
    obtain ⟨ds', h1, h2, -, h3⟩ := (decApi w hi hj config).decode_err (xs := xs) ds (by
      rcases h with h | ⟨k', m', h, hk⟩
      · exact .inl ((hv.full_none xs).2 h)
      · rw [hl] at h; cases h
        exact .inr ⟨n, k, hd, hk⟩)
    refine ⟨ds', h1, h2, fun m' hk => (by rw [hl] at hk; cases hk), fun k' m' hk => ?_⟩
    rw [hl] at hk; cases hk
    exact h3 n k hd

/-- C23: a text that is an encoding fails only if the destination is shorter than the decoded bytes. -/
theorem C23_fails_only_if_short (w : Bool) {i : Option Isa} (hi : Impl i) {config hex pad} (hv : IsVariant config hex pad) (xs ys : List Byte) (ds : List Cell)
    (hy : Spec.base32 hex pad ys = xs) {m'}
    (h : (decode w i config (whole 0 xs.length) (whole 1 ds.length)).run (Mem.ofBufs [xs.map some, ds]) = .err m') : ds.length < ys.length := by
  by_contra hc
  subst hy
  rw [C23_decode_ok w hi hv ys ds (by omega)] at h
  cases h

theorem not_text {config hex pad} (hv : IsVariant config hex pad) {xs : List Byte} (h : Base32.full config xs = none) : ¬ ∃ ys, Spec.base32 hex pad ys = xs :=
  (hv.full_none xs).1 h

/-- Misplaced padding: "AA====A=" is not an encoding. -/
example : ¬ ∃ ys, Spec.base32 false true ys = [0x41#8, 0x41#8, 0x3d#8, 0x3d#8, 0x3d#8, 0x3d#8, 0x41#8, 0x3d#8] :=
  not_text (config := BASE32) (.inl ⟨rfl, rfl, rfl⟩) (by decide +kernel)
/-- Non-zero trailing bits: "AB======" is not an encoding. -/
example : ¬ ∃ ys, Spec.base32 false true ys = [0x41#8, 0x42#8, 0x3d#8, 0x3d#8, 0x3d#8, 0x3d#8, 0x3d#8, 0x3d#8] :=
  not_text (config := BASE32) (.inl ⟨rfl, rfl, rfl⟩) (by decide +kernel)

/-- C22: `decode` returns `Ok(ys)` iff the text is exactly the encoding of `ys`. -/
theorem C22_decode_iff (w : Bool) {i : Option Isa} (hi : Impl i) {config hex pad} (hv : IsVariant config hex pad) (xs ys : List Byte) (ds : List Cell)
    (h : xs.length ≤ ds.length) :
    (∃ s m', (decode w i config (whole 0 xs.length) (whole 1 ds.length)).run (Mem.ofBufs [xs.map some, ds]) = .ok s m' ∧ m'.view s = ys.map some) ↔
      Spec.base32 hex pad ys = xs :=
  ((decApi w hi (j := none) (by simp) config).decode_iff ys ds h).trans (hv.full xs ys)

/-- C22: `decode` returns `Ok(ys)` iff `encode` (any implementation) turns `ys` into this text. -/
theorem C22_decode_iff_encode (P : Plat) (w w' : Bool) {i j : Option Isa} (hi : Impl i) (hj : Impl j) {config hex pad} (hv : IsVariant config hex pad)
    (xs ys : List Byte) (ds es : List Cell) (hy : ys.length ≤ P.isizeMax) (h : xs.length ≤ ds.length) (he : (Spec.base32 hex pad ys).length ≤ es.length) :
    (∃ s m', (decode w i config (whole 0 xs.length) (whole 1 ds.length)).run (Mem.ofBufs [xs.map some, ds]) = .ok s m' ∧ m'.view s = ys.map some) ↔
    (∃ s m', (encode P w' j config (whole 0 ys.length) (whole 1 es.length)).run (Mem.ofBufs [ys.map some, es]) = .ok s m' ∧ m'.view s = xs.map some) := by
  rw [C22_decode_iff w hi hv xs ys ds h, C19_encode P w' hj hv ys es hy he]
  constructor
  · rintro rfl
    exact ⟨_, _, rfl, view_copy ..⟩
  · rintro ⟨s, m', hr, hv⟩
    cases hr
    rw [view_copy] at hv
    exact map_some_inj hv

/-- C22: two different texts never decode to the same bytes. -/
theorem C22_injective (w w' : Bool) {i j : Option Isa} (hi : Impl i) (hj : Impl j) {config hex pad} (hv : IsVariant config hex pad)
    (xs xs' ys : List Byte) (ds ds' : List Cell) (h : xs.length ≤ ds.length) (h' : xs'.length ≤ ds'.length)
    (h1 : ∃ s m', (decode w i config (whole 0 xs.length) (whole 1 ds.length)).run (Mem.ofBufs [xs.map some, ds]) = .ok s m' ∧ m'.view s = ys.map some)
    (h2 : ∃ s m', (decode w' j config (whole 0 xs'.length) (whole 1 ds'.length)).run (Mem.ofBufs [xs'.map some, ds']) = .ok s m' ∧ m'.view s = ys.map some) :
    xs = xs' :=
  ((C22_decode_iff w hi hv xs ys ds h).1 h1).symm.trans ((C22_decode_iff w' hj hv xs' ys ds' h').1 h2)

/-- C21: decoding (with any implementation `j`) what any implementation `i` encoded gives back the input. -/
theorem C21_round_trip (P : Plat) (w w' : Bool) {i j : Option Isa} (hi : Impl i) (hj : Impl j) {config hex pad} (hv : IsVariant config hex pad)
    (xs : List Byte) (ds es : List Cell) (hx : xs.length ≤ P.isizeMax) (h : (Spec.base32 hex pad xs).length ≤ ds.length) (he : xs.length ≤ es.length) :
    ∃ (text : List Byte) (s : Slice) (m' : Mem), (encode P w i config (whole 0 xs.length) (whole 1 ds.length)).run (Mem.ofBufs [xs.map some, ds]) = .ok s m' ∧
      m'.view s = text.map some ∧
      (decode w' j config (whole 0 text.length) (whole 1 es.length)).run (Mem.ofBufs [text.map some, es]) =
        .ok (whole 1 xs.length) (Mem.ofBufs [text.map some, xs.map some ++ es.drop xs.length]) :=
  ⟨_, _, _, C19_encode P w hi hv xs ds hx h, view_copy .., C23_decode_ok w' hj hv xs es he⟩

example : ([1#8, 2#8, 3#8, 4#8] : List Byte).length ≤ (List.replicate 4 (none : Cell)).length := by decide

/-- C24, success: in-place decoding puts the same bytes at the front of the data and leaves the rest unchanged. -/
theorem C24_inplace_ok (w : Bool) {i : Option Isa} (hi : Impl i) {config hex pad} (hv : IsVariant config hex pad) (ys : List Byte) :
    let xs := Spec.base32 hex pad ys
    (decode_inplace w i config (whole 0 xs.length)).run (Mem.ofBufs [xs.map some]) =
      .ok (whole 0 ys.length) (Mem.ofBufs [(ys ++ xs.drop ys.length).map some]) :=
  (decApi w hi (j := none) (by simp) config).inplace_ok ((hv.full _ ys).2 rfl)

/-- C24, failure: in-place decoding fails on every other text and leaves the data from `decoded_length` on unchanged. -/
theorem C24_inplace_err (w : Bool) {i : Option Isa} (hi : Impl i) {config hex pad} (hv : IsVariant config hex pad) (xs : List Byte)
    (h : ¬ ∃ ys, Spec.base32 hex pad ys = xs) :
    ∃ xs' : List Byte, (decode_inplace w i config (whole 0 xs.length)).run (Mem.ofBufs [xs.map some]) = .err (Mem.ofBufs [xs'.map some]) ∧
      xs'.length = xs.length ∧
      (∀ m', (decoded_length_pub config (whole 0 xs.length)).run (Mem.ofBufs [xs.map some]) = .err m' → xs' = xs) ∧
      ∀ k m', (decoded_length_pub config (whole 0 xs.length)).run (Mem.ofBufs [xs.map some]) = .ok k m' → xs'.drop k = xs.drop k := by
  have hj : (none : Option Isa) ≠ some .sse2 := by simp
  have hl := (decApi w hi hj config).length_run xs
  rw [show (decApi w hi hj config).lengthFn (whole 0 xs.length) = decoded_length_pub config (whole 0 xs.length) from rfl] at hl
  obtain ⟨xs', h1, h2, h3, h4⟩ := (decApi w hi hj config).inplace_err (xs := xs) ((hv.full_none xs).2 h)
  refine ⟨xs', h1, h2, fun m' hk => h3 ?_, fun k m' hk => ?_⟩
  · cases hd : (decApi w hi hj config).dlen xs with
    | none => rfl
    | some r => rw [hl, hd] at hk; cases hk
  · cases hd : (decApi w hi hj config).dlen xs with
    | none => rw [hl, hd] at hk; cases hk
    | some r => rw [hl, hd] at hk; cases hk; exact h4 _ _ hd

/-- C24: `decode_inplace` and `decode` into a large enough buffer agree. -/
theorem C24_inplace_eq_copy (w w' : Bool) {i j : Option Isa} (hi : Impl i) (hj : Impl j) (config : Config) (xs ys : List Byte) (ds : List Cell)
    (h : xs.length ≤ ds.length) :
    (∃ s m', (decode_inplace w i config (whole 0 xs.length)).run (Mem.ofBufs [xs.map some]) = .ok s m' ∧ m'.view s = ys.map some) ↔
    (∃ s m', (decode w' j config (whole 0 xs.length) (whole 1 ds.length)).run (Mem.ofBufs [xs.map some, ds]) = .ok s m' ∧ m'.view s = ys.map some) :=
  ((decApi w hi (j := none) (by simp) config).inplace_iff ys).trans ((decApi w' hj (j := none) (by simp) config).decode_iff ys ds h).symm

theorem impl_none : Impl none := targets_ok.1

/-- C25: `check` accepts exactly the encodings; it changes nothing. -/
theorem C25_check {i : Option Isa} (hi : i ≠ some .sse2) {config hex pad} (hv : IsVariant config hex pad) (xs : List Byte) :
    let out := (check i config (whole 0 xs.length)).run (Mem.ofBufs [xs.map some])
    ((∃ ys, Spec.base32 hex pad ys = xs) → out = .ok () (Mem.ofBufs [xs.map some])) ∧
    ((¬ ∃ ys, Spec.base32 hex pad ys = xs) → out = .err (Mem.ofBufs [xs.map some])) := by
  intro out
  have h : out = _ := (decApi false impl_none hi config).check_run xs
  rw [full_eq] at h
  constructor
  · rintro ⟨ys, hy⟩
    rw [h, (hv.full xs ys).2 hy]; rfl
  · intro hn
    rw [h, (hv.full_none xs).2 hn]; rfl

/-- C25: `check` accepts iff `decode` (any implementation, enough room) succeeds. -/
theorem C25_check_agrees (w : Bool) {i j : Option Isa} (hi : i ≠ some .sse2) (hj : Impl j) (config : Config) (xs : List Byte) (ds : List Cell)
    (h : xs.length ≤ ds.length) :
    (∃ m', (check i config (whole 0 xs.length)).run (Mem.ofBufs [xs.map some]) = .ok () m') ↔
    (∃ s m', (decode w j config (whole 0 xs.length) (whole 1 ds.length)).run (Mem.ofBufs [xs.map some, ds]) = .ok s m') := by
  have hc := (decApi w hj hi config).check_run xs
  rw [show (decApi w hj hi config).check (whole 0 xs.length) = check i config (whole 0 xs.length) from rfl, full_eq] at hc
  rw [hc]
  cases hf : full config xs with
  | none =>
    obtain ⟨ds', h1, -⟩ := (decApi w hj hi config).decode_err ds (.inl hf)
    constructor
    · rintro ⟨_, h⟩; cases h
    · rintro ⟨s, m', h⟩
      have := h1.symm.trans h
      cases this
  | some ys =>
    have := (decApi w hj hi config).full_le (xs := xs) (ys := ys) hf
    exact ⟨fun _ => ⟨_, _, (decApi w hj hi config).decode_ok ds hf (by omega)⟩, fun _ => ⟨_, rfl⟩⟩

/-! ### Lengths -/

/-- C26: `decoded_length` of an encoding is `Ok` of the number of decoded bytes. -/
theorem C26_decoded_length {config hex pad} (hv : IsVariant config hex pad) (ys : List Byte) :
    let xs := Spec.base32 hex pad ys
    (decoded_length_pub config (whole 0 xs.length)).run (Mem.ofBufs [xs.map some]) = .ok ys.length (Mem.ofBufs [xs.map some]) := by
  intro xs
  have hj : (none : Option Isa) ≠ some .sse2 := by simp
  obtain ⟨n, hd, -⟩ := (decApi false impl_none hj config).dlen_of_full (xs := xs) (ys := ys) ((hv.full _ ys).2 rfl)
  have hl := (decApi false impl_none hj config).length_run xs
  rw [hd] at hl
  exact hl

/-- C26: `decoded_length` never panics and never reads outside the text, and its result is at most `estimated_decoded_length`,
whose computation does not overflow. -/
theorem C26_estimate (P : Plat) (config : Config) (xs : List Byte) (hx : xs.length ≤ P.usizeMax) :
    ((decoded_length_pub config (whole 0 xs.length)).run (Mem.ofBufs [xs.map some])).Safe ∧
    ∃ e, estimated_decoded_length P xs.length = some e ∧
      ∀ k m', (decoded_length_pub config (whole 0 xs.length)).run (Mem.ofBufs [xs.map some]) = .ok k m' → k ≤ e := by
  have hj : (none : Option Isa) ≠ some .sse2 := by simp
  have hl := (decApi false impl_none hj config).length_run xs
  rw [show (decApi false impl_none hj config).lengthFn (whole 0 xs.length) = decoded_length_pub config (whole 0 xs.length) from rfl,
    show (decApi false impl_none hj config).dlen xs = dlen config.padding xs from rfl] at hl
  have hu := Base64.usizeMax_ge P
  have he : estimated_decoded_length P xs.length = some ((xs.length / 8 + if xs.length % 8 = 0 then 0 else 1) * 5) := by
    unfold estimated_decoded_length
    split
    · rw [Plat.mulU, if_pos (by omega)]; rfl
    · rw [Plat.addU, if_pos (by omega)]
      show P.mulU _ _ = _
      rw [Plat.mulU, if_pos (by omega)]
  refine ⟨?_, _, he, ?_⟩
  · rw [hl]; cases dlen config.padding xs <;> trivial
  · intro k m' hk
    rw [hl] at hk
    cases hd : dlen config.padding xs with
    | none => rw [hd] at hk; cases hk
    | some r =>
      obtain ⟨n, k'⟩ := r
      rw [hd] at hk; cases hk
      obtain ⟨-, rfl, hn, -⟩ := dlen_some hd
      show decLen n ≤ _
      have h5 : decLen n ≤ (n + 7) / 8 * 5 := by
        unfold decLen; repeat' split
        all_goals omega
      split <;> omega

example : (decoded_length_pub BASE32 (whole 0 8)).run
      (Mem.ofBufs [[some 0x41#8, some 0x41#8, some 0x3d#8, some 0x3d#8, some 0x3d#8, some 0x3d#8, some 0x3d#8, some 0x3d#8]]) =
    .ok 1 (Mem.ofBufs [[some 0x41#8, some 0x41#8, some 0x3d#8, some 0x3d#8, some 0x3d#8, some 0x3d#8, some 0x3d#8, some 0x3d#8]]) :=
  C26_decoded_length (config := BASE32) (.inl ⟨rfl, rfl, rfl⟩) [0x00#8]

/-! ### Independence and safety -/

/-- C27: `encode` and `check` do exactly the same whichever implementation is chosen; `decode` and `decode_inplace`
succeed with the same result and final memory, or fail, together. -/
theorem C27_independent (P : Plat) (w w' : Bool) {i j c d : Option Isa} (hi : Impl i) (hj : Impl j) (hc : c ≠ some .sse2) (hd : d ≠ some .sse2) (config : Config)
    (xs : List Byte) (ds : List Cell) (hx : xs.length ≤ P.isizeMax) :
    (check c config (whole 0 xs.length)).run (Mem.ofBufs [xs.map some]) = (check d config (whole 0 xs.length)).run (Mem.ofBufs [xs.map some]) ∧
    (encode P w i config (whole 0 xs.length) (whole 1 ds.length)).run (Mem.ofBufs [xs.map some, ds]) =
      (encode P w' j config (whole 0 xs.length) (whole 1 ds.length)).run (Mem.ofBufs [xs.map some, ds]) ∧
    (∀ s m', (decode w i config (whole 0 xs.length) (whole 1 ds.length)).run (Mem.ofBufs [xs.map some, ds]) = .ok s m' ↔
      (decode w' j config (whole 0 xs.length) (whole 1 ds.length)).run (Mem.ofBufs [xs.map some, ds]) = .ok s m') ∧
    (∀ s m', (decode_inplace w i config (whole 0 xs.length)).run (Mem.ofBufs [xs.map some]) = .ok s m' ↔
      (decode_inplace w' j config (whole 0 xs.length)).run (Mem.ofBufs [xs.map some]) = .ok s m') := by
  have hu := isizeMax_le P
  have hfit : (text config xs).length ≤ P.usizeMax := by rw [text_length]; exact encLen_fits P _ _ (by omega)
  refine ⟨((decApi w hi hc config).check_run xs).trans ((decApi w' hj hd config).check_run xs).symm, ?_, ?_, ?_⟩
  · by_cases h : (text config xs).length ≤ ds.length
    · exact ((encApi w hi config).encode_ok P xs ds h hfit).trans ((encApi w' hj config).encode_ok P xs ds h hfit).symm
    · have h : ds.length < (text config xs).length := by omega
      exact ((encApi w hi config).encode_err P xs ds h hfit).trans ((encApi w' hj config).encode_err P xs ds h hfit).symm
  · intro s m'
    exact DecApi.decode_same (A := decApi w hi hc config) (B := decApi w' hj hd config) (fun _ => rfl) (fun _ => rfl) xs ds s m'
  · intro s m'
    exact DecApi.inplace_same (A := decApi w hi hc config) (B := decApi w' hj hd config) (fun _ => rfl) xs s m'

/-- C27: no call panics, reads or writes outside the given slices, reads uninitialised memory, indexes a table out of range
or reaches unreachable code. -/
theorem C27_safe (P : Plat) (w : Bool) {i c : Option Isa} (hi : Impl i) (hc : c ≠ some .sse2) (config : Config) (xs : List Byte) (ds : List Cell)
    (hx : xs.length ≤ P.isizeMax) :
    ((check c config (whole 0 xs.length)).run (Mem.ofBufs [xs.map some])).Safe ∧
    ((encode P w i config (whole 0 xs.length) (whole 1 ds.length)).run (Mem.ofBufs [xs.map some, ds])).Safe ∧
    ((decode w i config (whole 0 xs.length) (whole 1 ds.length)).run (Mem.ofBufs [xs.map some, ds])).Safe ∧
    ((decode_inplace w i config (whole 0 xs.length)).run (Mem.ofBufs [xs.map some])).Safe := by
  have hu := isizeMax_le P
  have hfit : (text config xs).length ≤ P.usizeMax := by rw [text_length]; exact encLen_fits P _ _ (by omega)
  exact ⟨(decApi w hi hc config).check_safe xs, (encApi w hi config).encode_safe P xs ds hfit, (decApi w hi hc config).decode_safe xs ds,
    (decApi w hi hc config).inplace_safe xs⟩

/-! ### Owned and appended results -/

/-- C28: `encode_to_string` and `encode_to_boxed_str` return exactly the encoding, fully initialised, unless its length
exceeds `usize::MAX / 2`, in which case they panic as the assertion says. (`alloc_uninit_bytes` is undefined behaviour
in the model unless `0 < m <= isize::MAX`, and `assume_init` unless every byte is initialised.) -/
theorem C28_encode_owned (P : Plat) (w : Bool) {i : Option Isa} (hi : Impl i) {config hex pad} (hv : IsVariant config hex pad) (xs : List Byte)
    (hx : xs.length ≤ P.isizeMax) :
    let t := Spec.base32 hex pad xs
    (encode_to_boxed_str P w i config (whole 0 xs.length)).run (Mem.ofBufs [xs.map some]) =
      (if t.length ≤ P.usizeMax / 2 then .ok (whole 1 t.length) (Mem.ofBufs [xs.map some, t.map some]) else .panic) ∧
    (encode_to_string P w i config (whole 0 xs.length)).run (Mem.ofBufs [xs.map some]) =
      (if t.length ≤ P.usizeMax / 2 then .ok ⟨1, t.length, t.length⟩ (Mem.ofBufs [xs.map some, t.map some]) else .panic) := by
  intro t
  have ht : t = text config xs := (hv.text xs).symm
  rw [ht]
  exact ⟨(encApi w hi config).boxed_out P xs (hv.fits P hx), (encApi w hi config).toString_out P xs (hv.fits P hx)⟩

/-- C28: `decode_to_vec` and `decode_to_boxed_bytes` succeed iff the text is an encoding, and then return exactly the decoded bytes,
fully initialised. -/
theorem C28_decode_owned (P : Plat) (w : Bool) {i : Option Isa} (hi : Impl i) {config hex pad} (hv : IsVariant config hex pad) (xs : List Byte)
    (hx : xs.length ≤ P.isizeMax) :
    let box := (decode_to_boxed_bytes P w i config (whole 0 xs.length)).run (Mem.ofBufs [xs.map some])
    let vec := (decode_to_vec P w i config (whole 0 xs.length)).run (Mem.ofBufs [xs.map some])
    (∀ ys, Spec.base32 hex pad ys = xs → box = .ok (whole 1 ys.length) (Mem.ofBufs [xs.map some, ys.map some]) ∧
      vec = .ok ⟨1, ys.length, ys.length⟩ (Mem.ofBufs [xs.map some, ys.map some])) ∧
    ((¬ ∃ ys, Spec.base32 hex pad ys = xs) → (∃ m', box = .err m') ∧ ∃ m', vec = .err m') := by
  intro box vec
  have hj : (none : Option Isa) ≠ some .sse2 := by simp
  have h1 := (decApi w hi hj config).boxed_out P xs hx
  have h2 := (decApi w hi hj config).toVec_out P xs hx
  constructor
  · intro ys hy
    have := (hv.full xs ys).2 hy
    exact ⟨h1.1 ys this, h2.1 ys this⟩
  · intro hn
    have := (hv.full_none xs).2 hn
    exact ⟨h1.2 this, h2.2 this⟩

/-- C28: `encode_append` keeps the previous content and appends exactly the encoding, whatever the spare capacity holds. -/
theorem C28_encode_append (P : Plat) (w : Bool) (extra : Nat) {i : Option Isa} (hi : Impl i) {config hex pad} (hv : IsVariant config hex pad)
    (xs prev : List Byte) (spare : List Cell) (hx : (Spec.base32 hex pad xs).length ≤ P.usizeMax / 2)
    (hp : prev.length + spare.length ≤ P.isizeMax)
    (hcap : (Spec.base32 hex pad xs).length ≤ spare.length ∨ prev.length + (Spec.base32 hex pad xs).length + extra ≤ P.isizeMax) :
    ∃ v' m', (encode_append P w extra i config (whole 0 xs.length) (vecOf prev spare)).run (Mem.ofBufs [xs.map some, prev.map some ++ spare]) = .ok v' m' ∧
      m'.view v'.slice = (prev ++ Spec.base32 hex pad xs).map some := by
  rw [← hv.text] at hx hcap ⊢
  exact (encApi w hi config).append_out P extra xs prev spare hx hp hcap

/-- C28: `decode_append` keeps the previous content and appends exactly the decoded bytes; if the text is not an encoding
it reports an error and the visible content is unchanged. -/
theorem C28_decode_append (P : Plat) (w : Bool) (extra : Nat) {i : Option Isa} (hi : Impl i) {config hex pad} (hv : IsVariant config hex pad)
    (xs prev : List Byte) (spare : List Cell) (hp : prev.length + spare.length ≤ P.isizeMax)
    (hcap : xs.length ≤ spare.length ∨ prev.length + xs.length + extra ≤ P.isizeMax) :
    let out := (decode_append P w extra i config (whole 0 xs.length) (vecOf prev spare)).run (Mem.ofBufs [xs.map some, prev.map some ++ spare])
    (∀ ys, Spec.base32 hex pad ys = xs → ∃ v' m', out = .ok (v', .ok ()) m' ∧ m'.view v'.slice = (prev ++ ys).map some) ∧
    ((¬ ∃ ys, Spec.base32 hex pad ys = xs) → ∃ v' m', out = .ok (v', .error ()) m' ∧ m'.view v'.slice = prev.map some) := by
  intro out
  have hj : (none : Option Isa) ≠ some .sse2 := by simp
  have h := (decApi w hi hj config).append_out P extra xs prev spare hp (fun n k hd => by
    have := ((decApi w hi hj config).hle xs n k hd).1
    omega)
  exact ⟨fun ys hy => h.1 ys ((hv.full xs ys).2 hy), fun hn => h.2 ((hv.full_none xs).2 hn)⟩

/-- The hypotheses of C28 hold for a 64-bit platform, a vector "x" with two uninitialised spare bytes, and one byte to encode. -/
example : let P : Plat := ⟨64, by omega⟩
    (Spec.base32 false true [7#8]).length ≤ P.usizeMax / 2 ∧ ([0x78#8] : List Byte).length + ([none, none] : List Cell).length ≤ P.isizeMax ∧
    ([0x78#8] : List Byte).length + (Spec.base32 false true [7#8]).length + 8 ≤ P.isizeMax := by decide

/-! ### The output is text -/

/-- C28: every character of an encoding belongs to the alphabet or is the padding character of a padding variant, hence is ASCII. -/
theorem C28_alphabet (hex pad : Bool) (xs : List Byte) :
    ∀ c ∈ Spec.base32 hex pad xs, ((∃ v, v < 32 ∧ c = Spec.base32Char hex v) ∨ (pad = true ∧ c = 0x3d#8)) ∧ c.toNat < 0x80 := by
  intro c hc
  rw [base32_eq] at hc
  have h := enc32_mem hc
  refine ⟨h, ?_⟩
  rcases h with ⟨v, hv, rfl⟩ | ⟨-, rfl⟩
  · have : ∀ (u : Bool) (v : Fin 32), (Spec.base32Char u v.val).toNat < 0x80 := by decide +kernel
    exact this hex ⟨v, hv⟩
  · decide

/-- C28: what `encode_as_str` returns is UTF-8, so the unchecked conversion is sound. -/
theorem C28_as_str (P : Plat) (w : Bool) {i : Option Isa} (hi : Impl i) {config hex pad} (hv : IsVariant config hex pad)
    (xs : List Byte) (ds : List Cell) (hx : xs.length ≤ P.isizeMax) (h : (Spec.base32 hex pad xs).length ≤ ds.length) :
    ∃ s m' text, (encode_as_str P w i config (whole 0 xs.length) (whole 1 ds.length)).run (Mem.ofBufs [xs.map some, ds]) = .ok s m' ∧
      m'.view s = text.map some ∧ Spec.ValidUtf8 text := by
  refine ⟨_, _, _, ?_, view_copy xs _ ds (Spec.base32 hex pad xs).length, .ascii fun c hc => (C28_alphabet hex pad xs c hc).2⟩
  exact C19_encode P w hi hv xs ds hx h

/-- C28: appending to a `String` keeps it valid UTF-8. -/
theorem C28_append_utf8 (P : Plat) (w : Bool) (extra : Nat) {i : Option Isa} (hi : Impl i) {config hex pad} (hv : IsVariant config hex pad)
    (xs prev : List Byte) (spare : List Cell) (hx : (Spec.base32 hex pad xs).length ≤ P.usizeMax / 2)
    (hp : prev.length + spare.length ≤ P.isizeMax)
    (hcap : (Spec.base32 hex pad xs).length ≤ spare.length ∨ prev.length + (Spec.base32 hex pad xs).length + extra ≤ P.isizeMax)
    (hprev : Spec.ValidUtf8 prev) :
    ∃ v' m' text, (encode_append P w extra i config (whole 0 xs.length) (vecOf prev spare)).run (Mem.ofBufs [xs.map some, prev.map some ++ spare]) = .ok v' m' ∧
      m'.view v'.slice = text.map some ∧ Spec.ValidUtf8 text := by
  obtain ⟨v', m', h1, h2⟩ := C28_encode_append P w extra hi hv xs prev spare hx hp hcap
  exact ⟨v', m', _, h1, h2, hprev.append (.ascii fun c hc => (C28_alphabet hex pad xs c hc).2)⟩

example : Spec.ValidUtf8 [0xe2#8, 0x82#8, 0xac#8, 0x21#8] := ⟨[[0xe2#8, 0x82#8, 0xac#8], [0x21#8]], by decide, rfl⟩

end Base32
end Simd
