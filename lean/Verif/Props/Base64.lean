import Verif.Lemmas.Base64Api
import Verif.Spec.Utf8
/-
base64-simd: properties C01-C10, C13, C14, C17.

Conventions. `i : Option Isa` is the implementation the dispatcher picked (`none` = scalar fallback). The
theorems hold for every `i` except bare SSE2, which is not among the crate's targets (`targets_ok`). The source
slice is buffer 0 and the destination slice is buffer 1, each slice being a whole allocation, so any access outside
a slice is undefined behaviour. `ds : List Cell` is the previous content of the destination, possibly uninitialised.
A statement `run … = .ok …` or `= .err …` in particular says: no panic, no undefined behaviour.
`xs.length ≤ P.isizeMax` holds for every Rust slice.
-/
namespace Simd
namespace Base64
open Vs

/-- The public variants and what they mean: the URL-safe alphabet or not, padding or not. -/
def IsVariant (config : Config) (url pad : Bool) : Prop :=
  (config = STANDARD ∧ url = false ∧ pad = true) ∨ (config = URL_SAFE ∧ url = true ∧ pad = true) ∨
  (config = STANDARD_NO_PAD ∧ url = false ∧ pad = false) ∨ (config = URL_SAFE_NO_PAD ∧ url = true ∧ pad = false)

theorem IsVariant.text {config url pad} (h : IsVariant config url pad) (xs) : text config xs = Spec.base64 url pad xs := by
  rcases h with ⟨rfl, rfl, rfl⟩ | ⟨rfl, rfl, rfl⟩ | ⟨rfl, rfl, rfl⟩ | ⟨rfl, rfl, rfl⟩ <;> rfl

theorem IsVariant.full {config url pad} (h : IsVariant config url pad) (xs ys) : full config xs = some ys ↔ Spec.base64 url pad ys = xs := by
  rw [← h.text]
  apply full_iff
  rcases h with ⟨rfl, rfl, rfl⟩ | ⟨rfl, rfl, rfl⟩ | ⟨rfl, rfl, rfl⟩ | ⟨rfl, rfl, rfl⟩ <;> decide

theorem IsVariant.full_none {config url pad} (h : IsVariant config url pad) (xs) : Base64.full config xs = none ↔ ¬ ∃ ys, Spec.base64 url pad ys = xs := by
  constructor
  · rintro hn ⟨ys, hy⟩
    rw [(h.full xs ys).2 hy] at hn; cases hn
  · intro hn
    cases hf : Base64.full config xs with
    | none => rfl
    | some ys => exact (hn ⟨ys, (h.full xs ys).1 hf⟩).elim

theorem IsVariant.fits {config url pad} (_ : IsVariant config url pad) (P : Plat) {xs : List Byte} (hx : xs.length ≤ P.isizeMax) :
    (Base64.text config xs).length ≤ P.usizeMax := by
  have hu := isizeMax_le P
  rw [text_length]; exact encLen_fits P _ _ (by omega)

/-- Every target the crate dispatches to is covered by the theorems. -/
theorem targets_ok : ∀ s ∈ targets, (some s : Option Isa) ≠ some .sse2 := by decide

/-! ### Encoding -/

/-- C01: `encode` writes exactly the RFC 4648 text, returns exactly it, and keeps the rest of the destination. -/
theorem C01_encode (P : Plat) {i : Option Isa} (hi : i ≠ some .sse2) {config url pad} (hv : IsVariant config url pad)
    (xs : List Byte) (ds : List Cell) (hx : xs.length ≤ P.isizeMax) (h : (Spec.base64 url pad xs).length ≤ ds.length) :
    (encode P i config (whole 0 xs.length) (whole 1 ds.length)).run (Mem.ofBufs [xs.map some, ds]) =
      .ok (whole 1 (Spec.base64 url pad xs).length)
        (Mem.ofBufs [xs.map some, (Spec.base64 url pad xs).map some ++ ds.drop (Spec.base64 url pad xs).length]) := by
  have := hv.fits P hx
  rw [← hv.text] at h ⊢
  exact (encApi hi config).encode_ok P xs ds h this

example : IsVariant URL_SAFE true true ∧ Spec.base64 true true [0xfb#8, 0xf0#8] = [0x2d#8, 0x5f#8, 0x41#8, 0x3d#8] ∧
    (Spec.base64 true true [0xfb#8, 0xf0#8]).length ≤ (List.replicate 9 (none : Cell)).length := by
  refine ⟨.inr (.inl ⟨rfl, rfl, rfl⟩), ?_⟩; decide

/-- C08: `encoded_length(n)` is the length of the encoding of every `n` bytes; it does not overflow for `n <= usize::MAX / 2`. -/
theorem C08_encoded_length (P : Plat) {config url pad} (hv : IsVariant config url pad) (n : Nat) :
    (n ≤ P.usizeMax / 2 → ∃ k, encoded_length P config n = some k ∧ ∀ xs : List Byte, xs.length = n → (Spec.base64 url pad xs).length = k) ∧
    (P.usizeMax / 2 < n → encoded_length P config n = none) := by
  unfold encoded_length
  constructor
  · intro h
    rw [if_pos h]
    refine ⟨_, encoded_length_unchecked_eq P n config (encLen_fits P _ _ h), ?_⟩
    rintro xs rfl
    rw [← hv.text, text_length]
  · intro h
    rw [if_neg (by omega)]

theorem encoded_length_eq (P : Plat) {config url pad} (hv : IsVariant config url pad) (xs : List Byte) (hx : xs.length ≤ P.isizeMax) :
    encoded_length P config xs.length = some (Spec.base64 url pad xs).length := by
  have hu := isizeMax_le P
  obtain ⟨k, h1, h2⟩ := (C08_encoded_length P hv xs.length).1 (by omega)
  rw [h1, h2 xs rfl]

/-- C02: `encode` fails iff the destination is shorter than `encoded_length(src.len())`, and then changes nothing;
otherwise the returned prefix of that length is initialised and the rest of the destination is kept. -/
theorem C02_encode_contract (P : Plat) {i : Option Isa} (hi : i ≠ some .sse2) {config url pad} (hv : IsVariant config url pad)
    (xs : List Byte) (ds : List Cell) (hx : xs.length ≤ P.isizeMax) :
    let out := (encode P i config (whole 0 xs.length) (whole 1 ds.length)).run (Mem.ofBufs [xs.map some, ds])
    ∃ k, encoded_length P config xs.length = some k ∧
      (ds.length < k → out = .err (Mem.ofBufs [xs.map some, ds])) ∧
      (k ≤ ds.length → ∃ new : List Byte, new.length = k ∧ out = .ok (whole 1 k) (Mem.ofBufs [xs.map some, new.map some ++ ds.drop k])) := by
  refine ⟨_, encoded_length_eq P hv xs hx, ?_, fun h => ⟨_, rfl, C01_encode P hi hv xs ds hx h⟩⟩
  intro h
  rw [← hv.text] at h
  exact (encApi hi config).encode_err P xs ds h (hv.fits P hx)

example : ([none, none, none] : List Cell).length < (Spec.base64 false true [1#8]).length := by decide

/-! ### Decoding -/

/-- C04 and C05, success: the encoding of `ys` decodes to exactly `ys`; the rest of the destination is kept. -/
theorem C05_decode_ok {i : Option Isa} (hi : i ≠ some .sse2) {config url pad} (hv : IsVariant config url pad) (ys : List Byte) (ds : List Cell)
    (h : ys.length ≤ ds.length) :
    let xs := Spec.base64 url pad ys
    (decode i config (whole 0 xs.length) (whole 1 ds.length)).run (Mem.ofBufs [xs.map some, ds]) =
      .ok (whole 1 ys.length) (Mem.ofBufs [xs.map some, ys.map some ++ ds.drop ys.length]) :=
  (decApi hi config).decode_ok ds ((hv.full _ ys).2 rfl) h

/-- C05, failure: a text that is not an encoding is rejected, as is every text if the destination is shorter than `decoded_length`.
Nothing behind the first `decoded_length` bytes of the destination is changed, and nothing at all if there is no decoded
length or the destination is too short. -/
theorem C05_decode_err {i : Option Isa} (hi : i ≠ some .sse2) {config url pad} (hv : IsVariant config url pad) (xs : List Byte) (ds : List Cell)
    (h : (¬ ∃ ys, Spec.base64 url pad ys = xs) ∨
      ∃ k m', (decoded_length_pub config (whole 0 xs.length)).run (Mem.ofBufs [xs.map some]) = .ok k m' ∧ ds.length < k) :
    ∃ ds', (decode i config (whole 0 xs.length) (whole 1 ds.length)).run (Mem.ofBufs [xs.map some, ds]) = .err (Mem.ofBufs [xs.map some, ds']) ∧
      ds'.length = ds.length ∧
      (∀ m', (decoded_length_pub config (whole 0 xs.length)).run (Mem.ofBufs [xs.map some]) = .err m' → ds' = ds) ∧
      ∀ k m', (decoded_length_pub config (whole 0 xs.length)).run (Mem.ofBufs [xs.map some]) = .ok k m' →
        ds'.drop k = ds.drop k ∧ (ds.length < k → ds' = ds) := by
  have hl := (decApi hi config).length_run xs
  rw [show (decApi hi config).lengthFn (whole 0 xs.length) = decoded_length_pub config (whole 0 xs.length) from rfl] at hl
  cases hd : (decApi hi config).dlen xs with
  | none =>
    rw [hd] at hl
    obtain ⟨ds', h1, h2, h3, -⟩ := (decApi hi config).decode_err (xs := xs) ds (.inl (by rw [DecApi.full, hd]; rfl))
    exact ⟨ds', h1, h2, fun _ _ => h3 hd, fun k m' hk => (by rw [hl] at hk; cases hk)⟩
  | some r =>
    obtain ⟨n, k⟩ := r
    rw [hd] at hl
    obtain ⟨ds', h1, h2, -, h3⟩ := (decApi hi config).decode_err (xs := xs) ds (by
      rcases h with h | ⟨k', m', h, hk⟩
      · exact .inl ((hv.full_none xs).2 h)
      · rw [hl] at h; cases h
        exact .inr ⟨n, k, hd, hk⟩)
    refine ⟨ds', h1, h2, fun m' hk => (by rw [hl] at hk; cases hk), fun k' m' hk => ?_⟩
    rw [hl] at hk; cases hk
    exact h3 n k hd

theorem not_text {config url pad} (hv : IsVariant config url pad) {xs : List Byte} (h : Base64.full config xs = none) : ¬ ∃ ys, Spec.base64 url pad ys = xs :=
  (hv.full_none xs).1 h

/-- Non-zero trailing bits: "AB==" is not an encoding. -/
example : ¬ ∃ ys, Spec.base64 false true ys = [0x41#8, 0x42#8, 0x3d#8, 0x3d#8] :=
  not_text (config := STANDARD) (.inl ⟨rfl, rfl, rfl⟩) (by decide +kernel)

/-- C04: `decode` returns `Ok(ys)` iff the text is exactly the encoding of `ys`. -/
theorem C04_decode_iff {i : Option Isa} (hi : i ≠ some .sse2) {config url pad} (hv : IsVariant config url pad) (xs ys : List Byte) (ds : List Cell)
    (h : xs.length ≤ ds.length) :
    (∃ s m', (decode i config (whole 0 xs.length) (whole 1 ds.length)).run (Mem.ofBufs [xs.map some, ds]) = .ok s m' ∧ m'.view s = ys.map some) ↔
      Spec.base64 url pad ys = xs :=
  ((decApi hi config).decode_iff ys ds h).trans (hv.full xs ys)

/-- C04: `decode` returns `Ok(ys)` iff `encode` (any implementation) turns `ys` into this text. -/
theorem C04_decode_iff_encode (P : Plat) {i j : Option Isa} (hi : i ≠ some .sse2) (hj : j ≠ some .sse2) {config url pad} (hv : IsVariant config url pad)
    (xs ys : List Byte) (ds es : List Cell) (hy : ys.length ≤ P.isizeMax) (h : xs.length ≤ ds.length) (he : (Spec.base64 url pad ys).length ≤ es.length) :
    (∃ s m', (decode i config (whole 0 xs.length) (whole 1 ds.length)).run (Mem.ofBufs [xs.map some, ds]) = .ok s m' ∧ m'.view s = ys.map some) ↔
    (∃ s m', (encode P j config (whole 0 ys.length) (whole 1 es.length)).run (Mem.ofBufs [ys.map some, es]) = .ok s m' ∧ m'.view s = xs.map some) := by
  rw [C04_decode_iff hi hv xs ys ds h, C01_encode P hj hv ys es hy he]
  constructor
  · rintro rfl
    exact ⟨_, _, rfl, view_copy ..⟩
  · rintro ⟨s, m', hr, hv⟩
    cases hr
    rw [view_copy] at hv
    exact map_some_inj hv

/-- C04: two different texts never decode to the same bytes. -/
theorem C04_injective {i j : Option Isa} (hi : i ≠ some .sse2) (hj : j ≠ some .sse2) {config url pad} (hv : IsVariant config url pad)
    (xs xs' ys : List Byte) (ds ds' : List Cell) (h : xs.length ≤ ds.length) (h' : xs'.length ≤ ds'.length)
    (h1 : ∃ s m', (decode i config (whole 0 xs.length) (whole 1 ds.length)).run (Mem.ofBufs [xs.map some, ds]) = .ok s m' ∧ m'.view s = ys.map some)
    (h2 : ∃ s m', (decode j config (whole 0 xs'.length) (whole 1 ds'.length)).run (Mem.ofBufs [xs'.map some, ds']) = .ok s m' ∧ m'.view s = ys.map some) :
    xs = xs' :=
  ((C04_decode_iff hi hv xs ys ds h).1 h1).symm.trans ((C04_decode_iff hj hv xs' ys ds' h').1 h2)

/-- C03: decoding (with any implementation `j`) what any implementation `i` encoded gives back the input. -/
theorem C03_round_trip (P : Plat) {i j : Option Isa} (hi : i ≠ some .sse2) (hj : j ≠ some .sse2) {config url pad} (hv : IsVariant config url pad)
    (xs : List Byte) (ds es : List Cell) (hx : xs.length ≤ P.isizeMax) (h : (Spec.base64 url pad xs).length ≤ ds.length) (he : xs.length ≤ es.length) :
    ∃ (text : List Byte) (s : Slice) (m' : Mem), (encode P i config (whole 0 xs.length) (whole 1 ds.length)).run (Mem.ofBufs [xs.map some, ds]) = .ok s m' ∧
      m'.view s = text.map some ∧
      (decode j config (whole 0 text.length) (whole 1 es.length)).run (Mem.ofBufs [text.map some, es]) =
        .ok (whole 1 xs.length) (Mem.ofBufs [text.map some, xs.map some ++ es.drop xs.length]) :=
  ⟨_, _, _, C01_encode P hi hv xs ds hx h, view_copy .., C05_decode_ok hj hv xs es he⟩

example : ([1#8, 2#8, 3#8, 4#8] : List Byte).length ≤ (List.replicate 4 (none : Cell)).length := by decide

/-- C05: a text that is an encoding fails only if the destination is shorter than the decoded bytes. -/
theorem C05_fails_only_if_short {i : Option Isa} (hi : i ≠ some .sse2) {config url pad} (hv : IsVariant config url pad) (xs ys : List Byte) (ds : List Cell)
    (hy : Spec.base64 url pad ys = xs) {m'}
    (h : (decode i config (whole 0 xs.length) (whole 1 ds.length)).run (Mem.ofBufs [xs.map some, ds]) = .err m') : ds.length < ys.length := by
  by_contra hc
  subst hy
  rw [C05_decode_ok hi hv ys ds (by omega)] at h
  cases h

/-- C06, success: in-place decoding puts the same bytes at the front of the data and leaves the rest unchanged. -/
theorem C06_inplace_ok {i : Option Isa} (hi : i ≠ some .sse2) {config url pad} (hv : IsVariant config url pad) (ys : List Byte) :
    let xs := Spec.base64 url pad ys
    (decode_inplace i config (whole 0 xs.length)).run (Mem.ofBufs [xs.map some]) =
      .ok (whole 0 ys.length) (Mem.ofBufs [(ys ++ xs.drop ys.length).map some]) :=
  (decApi hi config).inplace_ok ((hv.full _ ys).2 rfl)

/-- C06, failure: in-place decoding fails on every other text and leaves the data from `decoded_length` on unchanged. -/
theorem C06_inplace_err {i : Option Isa} (hi : i ≠ some .sse2) {config url pad} (hv : IsVariant config url pad) (xs : List Byte)
    (h : ¬ ∃ ys, Spec.base64 url pad ys = xs) :
    ∃ xs' : List Byte, (decode_inplace i config (whole 0 xs.length)).run (Mem.ofBufs [xs.map some]) = .err (Mem.ofBufs [xs'.map some]) ∧
      xs'.length = xs.length ∧
      (∀ m', (decoded_length_pub config (whole 0 xs.length)).run (Mem.ofBufs [xs.map some]) = .err m' → xs' = xs) ∧
      ∀ k m', (decoded_length_pub config (whole 0 xs.length)).run (Mem.ofBufs [xs.map some]) = .ok k m' → xs'.drop k = xs.drop k := by
  have hl := (decApi hi config).length_run xs
  rw [show (decApi hi config).lengthFn (whole 0 xs.length) = decoded_length_pub config (whole 0 xs.length) from rfl] at hl
  obtain ⟨xs', h1, h2, h3, h4⟩ := (decApi hi config).inplace_err (xs := xs) ((hv.full_none xs).2 h)
  refine ⟨xs', h1, h2, fun m' hk => h3 ?_, fun k m' hk => ?_⟩
  · cases hd : (decApi hi config).dlen xs with
    | none => rfl
    | some r => rw [hl, hd] at hk; cases hk
  · cases hd : (decApi hi config).dlen xs with
    | none => rw [hl, hd] at hk; cases hk
    | some r => rw [hl, hd] at hk; cases hk; exact h4 _ _ hd

/-- C06: `decode_inplace` and `decode` into a large enough buffer agree. -/
theorem C06_inplace_eq_copy {i j : Option Isa} (hi : i ≠ some .sse2) (hj : j ≠ some .sse2) (config : Config) (xs ys : List Byte) (ds : List Cell)
    (h : xs.length ≤ ds.length) :
    (∃ s m', (decode_inplace i config (whole 0 xs.length)).run (Mem.ofBufs [xs.map some]) = .ok s m' ∧ m'.view s = ys.map some) ↔
    (∃ s m', (decode j config (whole 0 xs.length) (whole 1 ds.length)).run (Mem.ofBufs [xs.map some, ds]) = .ok s m' ∧ m'.view s = ys.map some) :=
  ((decApi hi config).inplace_iff ys).trans ((decApi hj config).decode_iff ys ds h).symm

/-- C07: `check` accepts exactly the encodings; it changes nothing. -/
theorem C07_check {i : Option Isa} (hi : i ≠ some .sse2) {config url pad} (hv : IsVariant config url pad) (xs : List Byte) :
    let out := (check i config (whole 0 xs.length)).run (Mem.ofBufs [xs.map some])
    ((∃ ys, Spec.base64 url pad ys = xs) → out = .ok () (Mem.ofBufs [xs.map some])) ∧
    ((¬ ∃ ys, Spec.base64 url pad ys = xs) → out = .err (Mem.ofBufs [xs.map some])) := by
  intro out
  have h : out = _ := (decApi hi config).check_run xs
  rw [full_eq] at h
  constructor
  · rintro ⟨ys, hy⟩
    rw [h, (hv.full xs ys).2 hy]; rfl
  · intro hn
    rw [h, (hv.full_none xs).2 hn]; rfl

/-- C07: `check` accepts iff `decode` (any implementation, enough room) succeeds. -/
theorem C07_check_agrees {i j : Option Isa} (hi : i ≠ some .sse2) (hj : j ≠ some .sse2) (config : Config) (xs : List Byte) (ds : List Cell)
    (h : xs.length ≤ ds.length) :
    (∃ m', (check i config (whole 0 xs.length)).run (Mem.ofBufs [xs.map some]) = .ok () m') ↔
    (∃ s m', (decode j config (whole 0 xs.length) (whole 1 ds.length)).run (Mem.ofBufs [xs.map some, ds]) = .ok s m') := by
  have hc := (decApi hi config).check_run xs
  rw [show (decApi hi config).check (whole 0 xs.length) = check i config (whole 0 xs.length) from rfl, full_eq] at hc
  rw [hc]
  cases hf : full config xs with
  | none =>
    obtain ⟨ds', h1, -⟩ := (decApi hj config).decode_err ds (.inl hf)
    constructor
    · rintro ⟨_, h⟩; cases h
    · rintro ⟨s, m', h⟩
      have := h1.symm.trans h
      cases this
  | some ys =>
    have := (decApi hj config).full_le (xs := xs) (ys := ys) hf
    exact ⟨fun _ => ⟨_, _, (decApi hj config).decode_ok ds hf (by omega)⟩, fun _ => ⟨_, rfl⟩⟩

/-! ### Lengths -/

/-- C08: `decoded_length` of an encoding is `Ok` of the number of decoded bytes. -/
theorem C08_decoded_length {config url pad} (hv : IsVariant config url pad) (ys : List Byte) :
    let xs := Spec.base64 url pad ys
    (decoded_length_pub config (whole 0 xs.length)).run (Mem.ofBufs [xs.map some]) = .ok ys.length (Mem.ofBufs [xs.map some]) := by
  intro xs
  have hi : (none : Option Isa) ≠ some .sse2 := by simp
  obtain ⟨n, hd, -⟩ := (decApi hi config).dlen_of_full (xs := xs) (ys := ys) ((hv.full _ ys).2 rfl)
  have hl := (decApi hi config).length_run xs
  rw [hd] at hl
  exact hl

/-- C08: `decoded_length` never panics and never reads outside the text, and its result is at most `estimated_decoded_length`,
whose computation does not overflow. -/
theorem C08_estimate (P : Plat) (config : Config) (xs : List Byte) (hx : xs.length ≤ P.usizeMax) :
    ((decoded_length_pub config (whole 0 xs.length)).run (Mem.ofBufs [xs.map some])).Safe ∧
    ∃ e, estimated_decoded_length P xs.length = some e ∧
      ∀ k m', (decoded_length_pub config (whole 0 xs.length)).run (Mem.ofBufs [xs.map some]) = .ok k m' → k ≤ e := by
  have hi : (none : Option Isa) ≠ some .sse2 := by simp
  have hl := (decApi hi config).length_run xs
  rw [show (decApi hi config).lengthFn (whole 0 xs.length) = decoded_length_pub config (whole 0 xs.length) from rfl,
    show (decApi hi config).dlen xs = dlen config.extra xs from rfl] at hl
  have hu := usizeMax_ge P
  have he : estimated_decoded_length P xs.length = some ((xs.length / 4 + if xs.length % 4 ≠ 0 then 1 else 0) * 3) := by
    unfold estimated_decoded_length
    rw [Plat.addU, if_pos (by split <;> omega)]
    show P.mulU _ _ = _
    rw [Plat.mulU, if_pos (by split <;> omega)]
  refine ⟨?_, _, he, ?_⟩
  · rw [hl]; cases dlen config.extra xs <;> trivial
  · intro k m' hk
    rw [hl] at hk
    cases hd : dlen config.extra xs with
    | none => rw [hd] at hk; cases hk
    | some r =>
      obtain ⟨n, k'⟩ := r
      rw [hd] at hk; cases hk
      obtain ⟨-, rfl, hn, -⟩ := dlen_some hd
      show decLen n ≤ _
      unfold decLen
      split <;> [skip; split] <;> split <;> omega

example : (decoded_length_pub STANDARD (whole 0 4)).run (Mem.ofBufs [[some 0x41#8, some 0x41#8, some 0x3d#8, some 0x3d#8]]) =
    .ok 1 (Mem.ofBufs [[some 0x41#8, some 0x41#8, some 0x3d#8, some 0x3d#8]]) :=
  C08_decoded_length (config := STANDARD) (.inl ⟨rfl, rfl, rfl⟩) [0x00#8]

/-! ### Independence and safety -/

/-- C09: `encode` and `check` do exactly the same whichever implementation is chosen; `decode` and `decode_inplace`
succeed with the same result and final memory, or fail, together. -/
theorem C09_independent (P : Plat) {i j : Option Isa} (hi : i ≠ some .sse2) (hj : j ≠ some .sse2) (config : Config)
    (xs : List Byte) (ds : List Cell) (hx : xs.length ≤ P.isizeMax) :
    (check i config (whole 0 xs.length)).run (Mem.ofBufs [xs.map some]) = (check j config (whole 0 xs.length)).run (Mem.ofBufs [xs.map some]) ∧
    (encode P i config (whole 0 xs.length) (whole 1 ds.length)).run (Mem.ofBufs [xs.map some, ds]) =
      (encode P j config (whole 0 xs.length) (whole 1 ds.length)).run (Mem.ofBufs [xs.map some, ds]) ∧
    (∀ s m', (decode i config (whole 0 xs.length) (whole 1 ds.length)).run (Mem.ofBufs [xs.map some, ds]) = .ok s m' ↔
      (decode j config (whole 0 xs.length) (whole 1 ds.length)).run (Mem.ofBufs [xs.map some, ds]) = .ok s m') ∧
    (∀ s m', (decode_inplace i config (whole 0 xs.length)).run (Mem.ofBufs [xs.map some]) = .ok s m' ↔
      (decode_inplace j config (whole 0 xs.length)).run (Mem.ofBufs [xs.map some]) = .ok s m') := by
  have hu := isizeMax_le P
  have hfit : (text config xs).length ≤ P.usizeMax := by rw [text_length]; exact encLen_fits P _ _ (by omega)
  refine ⟨((decApi hi config).check_run xs).trans ((decApi hj config).check_run xs).symm, ?_, ?_, ?_⟩
  · by_cases h : (text config xs).length ≤ ds.length
    · exact ((encApi hi config).encode_ok P xs ds h hfit).trans ((encApi hj config).encode_ok P xs ds h hfit).symm
    · have h : ds.length < (text config xs).length := by omega
      exact ((encApi hi config).encode_err P xs ds h hfit).trans ((encApi hj config).encode_err P xs ds h hfit).symm
  · intro s m'
    exact DecApi.decode_same (A := decApi hi config) (B := decApi hj config) (fun _ => rfl) (fun _ => rfl) xs ds s m'
  · intro s m'
    exact DecApi.inplace_same (A := decApi hi config) (B := decApi hj config) (fun _ => rfl) xs s m'

/-- C10: no call panics, reads or writes outside the given slices, reads uninitialised memory, indexes a table out of range
or reaches unreachable code. -/
theorem C10_safe (P : Plat) {i : Option Isa} (hi : i ≠ some .sse2) (config : Config) (xs : List Byte) (ds : List Cell) (hx : xs.length ≤ P.isizeMax) :
    ((check i config (whole 0 xs.length)).run (Mem.ofBufs [xs.map some])).Safe ∧
    ((encode P i config (whole 0 xs.length) (whole 1 ds.length)).run (Mem.ofBufs [xs.map some, ds])).Safe ∧
    ((decode i config (whole 0 xs.length) (whole 1 ds.length)).run (Mem.ofBufs [xs.map some, ds])).Safe ∧
    ((decode_inplace i config (whole 0 xs.length)).run (Mem.ofBufs [xs.map some])).Safe := by
  have hu := isizeMax_le P
  have hfit : (text config xs).length ≤ P.usizeMax := by rw [text_length]; exact encLen_fits P _ _ (by omega)
  exact ⟨(decApi hi config).check_safe xs, (encApi hi config).encode_safe P xs ds hfit, (decApi hi config).decode_safe xs ds,
    (decApi hi config).inplace_safe xs⟩

/-! ### Owned and appended results -/

/-- C13: `encode_to_string` and `encode_to_boxed_str` return exactly the encoding, fully initialised, unless its length
exceeds `usize::MAX / 2`, in which case they panic as the assertion says. (`alloc_uninit_bytes` is undefined behaviour
in the model unless `0 < m <= isize::MAX`, and `assume_init` unless every byte is initialised.) -/
theorem C13_encode_owned (P : Plat) {i : Option Isa} (hi : i ≠ some .sse2) {config url pad} (hv : IsVariant config url pad) (xs : List Byte)
    (hx : xs.length ≤ P.isizeMax) :
    let t := Spec.base64 url pad xs
    (encode_to_boxed_str P i config (whole 0 xs.length)).run (Mem.ofBufs [xs.map some]) =
      (if t.length ≤ P.usizeMax / 2 then .ok (whole 1 t.length) (Mem.ofBufs [xs.map some, t.map some]) else .panic) ∧
    (encode_to_string P i config (whole 0 xs.length)).run (Mem.ofBufs [xs.map some]) =
      (if t.length ≤ P.usizeMax / 2 then .ok ⟨1, t.length, t.length⟩ (Mem.ofBufs [xs.map some, t.map some]) else .panic) := by
  intro t
  have ht : t = text config xs := (hv.text xs).symm
  rw [ht]
  exact ⟨(encApi hi config).boxed_out P xs (hv.fits P hx), (encApi hi config).toString_out P xs (hv.fits P hx)⟩

/-- C13: `decode_to_vec` and `decode_to_boxed_bytes` succeed iff the text is an encoding, and then return exactly the decoded bytes,
fully initialised. -/
theorem C13_decode_owned (P : Plat) {i : Option Isa} (hi : i ≠ some .sse2) {config url pad} (hv : IsVariant config url pad) (xs : List Byte)
    (hx : xs.length ≤ P.isizeMax) :
    let box := (decode_to_boxed_bytes P i config (whole 0 xs.length)).run (Mem.ofBufs [xs.map some])
    let vec := (decode_to_vec P i config (whole 0 xs.length)).run (Mem.ofBufs [xs.map some])
    (∀ ys, Spec.base64 url pad ys = xs → box = .ok (whole 1 ys.length) (Mem.ofBufs [xs.map some, ys.map some]) ∧
      vec = .ok ⟨1, ys.length, ys.length⟩ (Mem.ofBufs [xs.map some, ys.map some])) ∧
    ((¬ ∃ ys, Spec.base64 url pad ys = xs) → (∃ m', box = .err m') ∧ ∃ m', vec = .err m') := by
  intro box vec
  have h1 := (decApi hi config).boxed_out P xs hx
  have h2 := (decApi hi config).toVec_out P xs hx
  constructor
  · intro ys hy
    have := (hv.full xs ys).2 hy
    exact ⟨h1.1 ys this, h2.1 ys this⟩
  · intro hn
    have := (hv.full_none xs).2 hn
    exact ⟨h1.2 this, h2.2 this⟩

/-- C14: `encode_append` keeps the previous content and appends exactly the encoding, whatever the spare capacity holds. -/
theorem C14_encode_append (P : Plat) (extra : Nat) {i : Option Isa} (hi : i ≠ some .sse2) {config url pad} (hv : IsVariant config url pad)
    (xs prev : List Byte) (spare : List Cell) (hx : (Spec.base64 url pad xs).length ≤ P.usizeMax / 2)
    (hp : prev.length + spare.length ≤ P.isizeMax)
    (hcap : (Spec.base64 url pad xs).length ≤ spare.length ∨ prev.length + (Spec.base64 url pad xs).length + extra ≤ P.isizeMax) :
    ∃ v' m', (encode_append P extra i config (whole 0 xs.length) (vecOf prev spare)).run (Mem.ofBufs [xs.map some, prev.map some ++ spare]) = .ok v' m' ∧
      m'.view v'.slice = (prev ++ Spec.base64 url pad xs).map some := by
  rw [← hv.text] at hx hcap ⊢
  exact (encApi hi config).append_out P extra xs prev spare hx hp hcap

/-- C14: `decode_append` keeps the previous content and appends exactly the decoded bytes; if the text is not an encoding
it reports an error and the visible content is unchanged. -/
theorem C14_decode_append (P : Plat) (extra : Nat) {i : Option Isa} (hi : i ≠ some .sse2) {config url pad} (hv : IsVariant config url pad)
    (xs prev : List Byte) (spare : List Cell) (hp : prev.length + spare.length ≤ P.isizeMax)
    (hcap : xs.length ≤ spare.length ∨ prev.length + xs.length + extra ≤ P.isizeMax) :
    let out := (decode_append P extra i config (whole 0 xs.length) (vecOf prev spare)).run (Mem.ofBufs [xs.map some, prev.map some ++ spare])
    (∀ ys, Spec.base64 url pad ys = xs → ∃ v' m', out = .ok (v', .ok ()) m' ∧ m'.view v'.slice = (prev ++ ys).map some) ∧
    ((¬ ∃ ys, Spec.base64 url pad ys = xs) → ∃ v' m', out = .ok (v', .error ()) m' ∧ m'.view v'.slice = prev.map some) := by
  intro out
  have h := (decApi hi config).append_out P extra xs prev spare hp (fun n k hd => by
    have := ((decApi hi config).hle xs n k hd).1
    omega)
  exact ⟨fun ys hy => h.1 ys ((hv.full xs ys).2 hy), fun hn => h.2 ((hv.full_none xs).2 hn)⟩

/-- The hypotheses of C14 hold for a 64-bit platform, a vector "x" with two uninitialised spare bytes, and one byte to encode. -/
example : let P : Plat := ⟨64, by omega⟩
    (Spec.base64 false true [7#8]).length ≤ P.usizeMax / 2 ∧ ([0x78#8] : List Byte).length + ([none, none] : List Cell).length ≤ P.isizeMax ∧
    ([0x78#8] : List Byte).length + (Spec.base64 false true [7#8]).length + 8 ≤ P.isizeMax := by decide

/-! ### The output is text -/

/-- C17: every character of an encoding belongs to the alphabet or is the padding character of a padding variant, hence is ASCII. -/
theorem C17_alphabet (url pad : Bool) (xs : List Byte) :
    ∀ c ∈ Spec.base64 url pad xs, ((∃ v, v < 64 ∧ c = Spec.base64Char url v) ∨ (pad = true ∧ c = 0x3d#8)) ∧ c.toNat < 0x80 := by
  intro c hc
  rw [base64_eq] at hc
  have h := enc64_mem hc
  refine ⟨h, ?_⟩
  rcases h with ⟨v, hv, rfl⟩ | ⟨-, rfl⟩
  · have : ∀ (u : Bool) (v : Fin 64), (Spec.base64Char u v.val).toNat < 0x80 := by decide +kernel
    exact this url ⟨v, hv⟩
  · decide

/-- C17: what `encode_as_str` returns is UTF-8, so the unchecked conversion is sound. -/
theorem C17_as_str (P : Plat) {i : Option Isa} (hi : i ≠ some .sse2) {config url pad} (hv : IsVariant config url pad)
    (xs : List Byte) (ds : List Cell) (hx : xs.length ≤ P.isizeMax) (h : (Spec.base64 url pad xs).length ≤ ds.length) :
    ∃ s m' text, (encode_as_str P i config (whole 0 xs.length) (whole 1 ds.length)).run (Mem.ofBufs [xs.map some, ds]) = .ok s m' ∧
      m'.view s = text.map some ∧ Spec.ValidUtf8 text := by
  refine ⟨_, _, _, ?_, view_copy xs _ ds (Spec.base64 url pad xs).length, .ascii fun c hc => (C17_alphabet url pad xs c hc).2⟩
  exact C01_encode P hi hv xs ds hx h

/-- C17: appending to a `String` keeps it valid UTF-8. -/
theorem C17_append (P : Plat) (extra : Nat) {i : Option Isa} (hi : i ≠ some .sse2) {config url pad} (hv : IsVariant config url pad)
    (xs prev : List Byte) (spare : List Cell) (hx : (Spec.base64 url pad xs).length ≤ P.usizeMax / 2)
    (hp : prev.length + spare.length ≤ P.isizeMax)
    (hcap : (Spec.base64 url pad xs).length ≤ spare.length ∨ prev.length + (Spec.base64 url pad xs).length + extra ≤ P.isizeMax)
    (hprev : Spec.ValidUtf8 prev) :
    ∃ v' m' text, (encode_append P extra i config (whole 0 xs.length) (vecOf prev spare)).run (Mem.ofBufs [xs.map some, prev.map some ++ spare]) = .ok v' m' ∧
      m'.view v'.slice = text.map some ∧ Spec.ValidUtf8 text := by
  obtain ⟨v', m', h1, h2⟩ := C14_encode_append P extra hi hv xs prev spare hx hp hcap
  exact ⟨v', m', _, h1, h2, hprev.append (.ascii fun c hc => (C17_alphabet url pad xs c hc).2)⟩

example : Spec.ValidUtf8 [0xe2#8, 0x82#8, 0xac#8, 0x21#8] := ⟨[[0xe2#8, 0x82#8, 0xac#8], [0x21#8]], by decide, rfl⟩

end Base64
end Simd
