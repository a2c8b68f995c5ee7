import Verif.Lemmas.Variants
import Verif.Props.Base64
import Verif.Props.Base32
import Verif.Props.Hex
import Verif.Props.Uuid
import Verif.Props.Forgiving
/-
C71: how the outputs of the variants of one encoding are related.
C72: how forgiving decoding is related to strict decoding.

The claims are about the outcomes of the modelled functions; the relations (`Spec.noPad`, `Spec.toUrlSafe`, ...) are in `Spec/Variants.lean`.
The implementations chosen for the two calls need not be the same.
-/
namespace Simd.Base64
open Spec

/-- C71: the URL-safe variant differs from the standard one exactly in `-` for `+` and `_` for `/`. -/
theorem C71_url (P : Plat) {i j : Option Isa} (hi : i ≠ some .sse2) (hj : j ≠ some .sse2) {config config' pad} (hv : IsVariant config false pad)
    (hv' : IsVariant config' true pad) (xs : List Byte) (ds es : List Cell) (hx : xs.length ≤ P.isizeMax)
    (hd : (Spec.base64 false pad xs).length ≤ ds.length) (he : (Spec.base64 false pad xs).length ≤ es.length) :
    ∃ (t : List Byte) (s : Slice) (m : Mem) (s' : Slice) (m' : Mem), (encode P i config (whole 0 xs.length) (whole 1 ds.length)).run (Mem.ofBufs [xs.map some, ds]) = .ok s m ∧ m.view s = t.map some ∧
      (encode P j config' (whole 0 xs.length) (whole 1 es.length)).run (Mem.ofBufs [xs.map some, es]) = .ok s' m' ∧
      m'.view s' = (t.map toUrlSafe).map some := by
  have hl : (Spec.base64 true pad xs).length = (Spec.base64 false pad xs).length := by rw [base64_url, List.length_map]
  refine ⟨_, _, _, _, _, C01_encode P hi hv xs ds hx hd, view_copy .., C01_encode P hj hv' xs es hx (by omega), ?_⟩
  rw [view_copy, base64_url]

example : IsVariant STANDARD false true ∧ IsVariant URL_SAFE true true ∧ Spec.base64 false true [0xfb#8, 0xf0#8] = [0x2b#8, 0x2f#8, 0x41#8, 0x3d#8] ∧
    [0x2b#8, 0x2f#8, 0x41#8, 0x3d#8].map toUrlSafe = [0x2d#8, 0x5f#8, 0x41#8, 0x3d#8] := by
  refine ⟨.inl ⟨rfl, rfl, rfl⟩, .inr (.inl ⟨rfl, rfl, rfl⟩), ?_⟩; decide

/-- C71: the output without padding is the output with padding without its `=`. -/
theorem C71_pad (P : Plat) {i j : Option Isa} (hi : i ≠ some .sse2) (hj : j ≠ some .sse2) {config config' url} (hv : IsVariant config url true)
    (hv' : IsVariant config' url false) (xs : List Byte) (ds es : List Cell) (hx : xs.length ≤ P.isizeMax)
    (hd : (Spec.base64 url true xs).length ≤ ds.length) (he : (Spec.base64 url false xs).length ≤ es.length) :
    ∃ (t : List Byte) (s : Slice) (m : Mem) (s' : Slice) (m' : Mem), (encode P i config (whole 0 xs.length) (whole 1 ds.length)).run (Mem.ofBufs [xs.map some, ds]) = .ok s m ∧ m.view s = t.map some ∧
      (encode P j config' (whole 0 xs.length) (whole 1 es.length)).run (Mem.ofBufs [xs.map some, es]) = .ok s' m' ∧
      m'.view s' = (noPad t).map some := by
  refine ⟨_, _, _, _, _, C01_encode P hi hv xs ds hx hd, view_copy .., C01_encode P hj hv' xs es hx he, ?_⟩
  rw [view_copy, base64_noPad]

example : IsVariant STANDARD false true ∧ IsVariant STANDARD_NO_PAD false false ∧
    noPad [0x2b#8, 0x2f#8, 0x41#8, 0x3d#8] = Spec.base64 false false [0xfb#8, 0xf0#8] := by
  refine ⟨.inl ⟨rfl, rfl, rfl⟩, .inr (.inr (.inl ⟨rfl, rfl, rfl⟩)), ?_⟩; decide

/-- `forgiving_decode` succeeds exactly where the WHATWG algorithm does, with its bytes. -/
theorem copy_iff (fi : Option Isa) {di : Option Isa} (hi : di ≠ some .sse2) (xs : List Byte) (ds : List Cell) (hl : xs.length ≤ ds.length) (ys : List Byte) :
    (∃ s m', (forgiving_decode fi di (whole 0 xs.length) (whole 1 ds.length)).run (Mem.ofBufs [xs.map some, ds]) = .ok s m' ∧ m'.view s = ys.map some) ↔
      forgivingDecode xs = some ys := by
  cases hf : forgivingDecode xs with
  | none =>
    obtain ⟨_, h1, -⟩ := C12_copy_err fi hi xs ds hl hf
    rw [h1]; simp
  | some zs =>
    obtain ⟨ds', h1, h2, h3, -⟩ := C12_copy_ok fi hi xs zs ds hl hf
    have hv : (Mem.ofBufs [xs.map some, ds']).view (whole 1 zs.length) = zs.map some := by
      rw [← List.take_append_drop zs.length ds', h3]
      exact (hasBytes_ofBufs (b := 1) (xs := zs) rfl).view
    rw [h1]
    constructor
    · rintro ⟨s, m', hr, hv'⟩
      cases hr
      rw [hv] at hv'
      rw [map_some_inj hv']
    · intro e; cases e
      exact ⟨_, _, rfl, hv⟩

/-- C72: what strict decoding with the standard alphabet accepts, with or without padding, all three forgiving functions accept, with the same bytes. -/
theorem C72_strict (P : Plat) (extra : Nat) (fi fj fk : Option Isa) {i di dj dk : Option Isa} (hi : i ≠ some .sse2) (hdi : di ≠ some .sse2)
    (hdj : dj ≠ some .sse2) (hdk : dk ≠ some .sse2) {config pad} (hv : IsVariant config false pad) (xs ys : List Byte) (ds es : List Cell)
    (hx : xs.length + extra ≤ P.isizeMax) (hd : xs.length ≤ ds.length) (he : xs.length ≤ es.length)
    (h : ∃ s m', (decode i config (whole 0 xs.length) (whole 1 ds.length)).run (Mem.ofBufs [xs.map some, ds]) = .ok s m' ∧ m'.view s = ys.map some) :
    (∃ s m', (forgiving_decode fi di (whole 0 xs.length) (whole 1 es.length)).run (Mem.ofBufs [xs.map some, es]) = .ok s m' ∧ m'.view s = ys.map some) ∧
    (∃ s m', (forgiving_decode_inplace fj dj (whole 0 xs.length)).run (Mem.ofBufs [xs.map some]) = .ok s m' ∧ m'.view s = ys.map some) ∧
    ∃ v m', (forgiving_decode_to_vec P extra fk dk (whole 0 xs.length)).run (Mem.ofBufs [xs.map some]) = .ok v m' ∧ m'.view v.slice = ys.map some := by
  have hs : forgivingDecode xs = some ys := by
    rw [← (C04_decode_iff hi hv xs ys ds hd).1 h]
    exact forgiving_strict pad ys
  have h1 := (copy_iff fi hdi xs es he ys).2 hs
  obtain ⟨h2, h3⟩ := C12_agree P extra fi fj fk hdi hdj hdk xs es hx he ys
  exact ⟨h1, h2.1 h1, h3.1 (h2.1 h1)⟩

/-- The hypothesis holds for "+/A=" (STANDARD); the converse fails: "+/A" is accepted by forgiving decoding only. -/
example : Spec.base64 false true [0xfb#8, 0xf0#8] = [0x2b#8, 0x2f#8, 0x41#8, 0x3d#8] ∧
    forgivingDecode [0x2b#8, 0x2f#8, 0x41#8] = some [0xfb#8, 0xf0#8] := by decide +kernel

/-- C72: whitespace does not matter: inputs that are the same without it are treated in the same way. -/
theorem C72_whitespace (fi fj : Option Isa) {di dj : Option Isa} (hi : di ≠ some .sse2) (hj : dj ≠ some .sse2) (xs xs' ys : List Byte) (ds es : List Cell)
    (hd : xs.length ≤ ds.length) (he : xs'.length ≤ es.length) (h : stripWs xs = stripWs xs') :
    (∃ s m', (forgiving_decode fi di (whole 0 xs.length) (whole 1 ds.length)).run (Mem.ofBufs [xs.map some, ds]) = .ok s m' ∧ m'.view s = ys.map some) ↔
    ∃ s m', (forgiving_decode fj dj (whole 0 xs'.length) (whole 1 es.length)).run (Mem.ofBufs [xs'.map some, es]) = .ok s m' ∧ m'.view s = ys.map some := by
  rw [copy_iff fi hi xs ds hd, copy_iff fj hj xs' es he, forgivingDecode, forgivingDecode, h]

example : stripWs [0x2b#8, 0x20#8, 0x2f#8, 0x0a#8, 0x41#8] = stripWs [0x09#8, 0x2b#8, 0x2f#8, 0x41#8] := by decide

/-- C72: a byte which is neither whitespace nor `=` nor in the standard alphabet makes forgiving decoding fail, wherever it stands. -/
theorem C72_reject (fi : Option Isa) {di : Option Isa} (hi : di ≠ some .sse2) (xs : List Byte) (ds : List Cell) (hd : xs.length ≤ ds.length)
    {c : Byte} (hc : c ∈ xs) (hw : isWs c = false) (he : c ≠ 0x3d#8) (ha : ∀ v, v < 64 → base64Char false v ≠ c) :
    ∃ m', (forgiving_decode fi di (whole 0 xs.length) (whole 1 ds.length)).run (Mem.ofBufs [xs.map some, ds]) = .err m' := by
  obtain ⟨ds', h, -⟩ := C12_copy_err fi hi xs ds hd (forgiving_reject hc hw he ha)
  exact ⟨_, h⟩

example : isWs 0x2d#8 = false ∧ 0x2d#8 ≠ 0x3d#8 ∧ ∀ v, v < 64 → base64Char false v ≠ 0x2d#8 := by decide +kernel

end Simd.Base64

namespace Simd.Base32
open Spec

/-- C71: the "extended hex" variant is the usual one with each digit replaced by the one at the same place of the other alphabet. -/
theorem C71_base32_hex (P : Plat) (w w' : Bool) {i j : Option Isa} (hi : Impl i) (hj : Impl j) {config config' pad} (hv : IsVariant config false pad)
    (hv' : IsVariant config' true pad) (xs : List Byte) (ds es : List Cell) (hx : xs.length ≤ P.isizeMax)
    (hd : (Spec.base32 false pad xs).length ≤ ds.length) (he : (Spec.base32 false pad xs).length ≤ es.length) :
    ∃ (t : List Byte) (s : Slice) (m : Mem) (s' : Slice) (m' : Mem), (encode P w i config (whole 0 xs.length) (whole 1 ds.length)).run (Mem.ofBufs [xs.map some, ds]) = .ok s m ∧ m.view s = t.map some ∧
      (encode P w' j config' (whole 0 xs.length) (whole 1 es.length)).run (Mem.ofBufs [xs.map some, es]) = .ok s' m' ∧
      m'.view s' = (t.map toBase32Hex).map some := by
  have hl : (Spec.base32 true pad xs).length = (Spec.base32 false pad xs).length := by rw [base32_hex, List.length_map]
  refine ⟨_, _, _, _, _, C19_encode P w hi hv xs ds hx hd, view_copy .., C19_encode P w' hj hv' xs es hx (by omega), ?_⟩
  rw [view_copy, base32_hex]

/-- C71: the output without padding is the output with padding without its `=`. -/
theorem C71_base32_pad (P : Plat) (w w' : Bool) {i j : Option Isa} (hi : Impl i) (hj : Impl j) {config config' hex} (hv : IsVariant config hex true)
    (hv' : IsVariant config' hex false) (xs : List Byte) (ds es : List Cell) (hx : xs.length ≤ P.isizeMax)
    (hd : (Spec.base32 hex true xs).length ≤ ds.length) (he : (Spec.base32 hex false xs).length ≤ es.length) :
    ∃ (t : List Byte) (s : Slice) (m : Mem) (s' : Slice) (m' : Mem), (encode P w i config (whole 0 xs.length) (whole 1 ds.length)).run (Mem.ofBufs [xs.map some, ds]) = .ok s m ∧ m.view s = t.map some ∧
      (encode P w' j config' (whole 0 xs.length) (whole 1 es.length)).run (Mem.ofBufs [xs.map some, es]) = .ok s' m' ∧
      m'.view s' = (noPad t).map some := by
  refine ⟨_, _, _, _, _, C19_encode P w hi hv xs ds hx hd, view_copy .., C19_encode P w' hj hv' xs es hx he, ?_⟩
  rw [view_copy, base32_noPad]

example : IsVariant BASE32 false true ∧ IsVariant BASE32HEX true true ∧ IsVariant BASE32_NO_PAD false false ∧
    Spec.base32 false true [0xff#8, 0x01#8] = Spec.ascii "74AQ====" ∧ (Spec.ascii "74AQ====").map toBase32Hex = Spec.ascii "VS0G====" ∧
    noPad (Spec.ascii "74AQ====") = Spec.ascii "74AQ" := by
  refine ⟨.inl ⟨rfl, rfl, rfl⟩, .inr (.inl ⟨rfl, rfl, rfl⟩), .inr (.inr (.inl ⟨rfl, rfl, rfl⟩)), ?_⟩; decide +kernel

end Simd.Base32

namespace Simd.Hex
open Spec

/-- C71: the upper-case output is the lower-case output in upper case, and conversely. -/
theorem C71_hex_case (P : Plat) (i j : Option Isa) (xs : List Byte) (ds es : List Cell) (hd : ds.length ≤ P.usizeMax) (he : es.length ≤ P.usizeMax)
    (h : 2 * xs.length ≤ ds.length) (h' : 2 * xs.length ≤ es.length) :
    ∃ (t t' : List Byte) (s : Slice) (m : Mem) (s' : Slice) (m' : Mem), (encode P i (whole 0 xs.length) (whole 1 ds.length) .lower).run (Mem.ofBufs [xs.map some, ds]) = .ok s m ∧ m.view s = t.map some ∧
      (encode P j (whole 0 xs.length) (whole 1 es.length) .upper).run (Mem.ofBufs [xs.map some, es]) = .ok s' m' ∧ m'.view s' = t'.map some ∧
      t' = t.map toUpper ∧ t = t'.map toLower := by
  have hl : ∀ u, (hexEncode u xs).length = 2 * xs.length := fun u => hexEncode_length u xs
  refine ⟨_, _, _, _, _, _, C29_encode P i .lower xs ds hd h, ?_, C29_encode P j .upper xs es he h', ?_, hexEncode_upper xs, hexEncode_lower xs⟩
  · rw [← hl false]; exact view_copy ..
  · rw [← hl true]; exact view_copy ..

example : (hexEncode false [0xde#8, 0x1f#8]) = Spec.ascii "de1f" ∧ (Spec.ascii "de1f").map toUpper = Spec.ascii "DE1F" ∧
    (Spec.ascii "DE1F").map toLower = Spec.ascii "de1f" := by decide +kernel

end Simd.Hex

namespace Simd.Uuid
open Spec

/-- C71: the hyphenated form without hyphens is the simple form. -/
theorem C71_uuid (i : Option Isa) {j : Option Isa} (hj : HypImpl j) (case : AsciiCase) (u : List Byte) (ds es : List Cell) (hu : u.length = 16)
    (hd : ds.length = 32) (he : es.length = 36) :
    ∃ (t t' : List Byte) (s : Slice) (m : Mem) (s' : Slice) (m' : Mem), (format_simple i ⟨0, 0⟩ ⟨1, 0⟩ case).run (Mem.ofBufs [u.map some, ds]) = .ok s m ∧ m.view s = t.map some ∧
      (format_hyphenated j ⟨0, 0⟩ ⟨1, 0⟩ case).run (Mem.ofBufs [u.map some, es]) = .ok s' m' ∧ m'.view s' = t'.map some ∧
      t = noHyphens t' := by
  refine ⟨_, _, _, _, _, _, C40_format_simple i case u ds hu hd, ?_, C40_format_hyphenated hj case u es hu he, ?_, (uuid_noHyphens (case == .upper) u).symm⟩
  · have := view_copy u (uuidSimple (case == .upper) u) [] 0
    rwa [List.drop_nil, List.append_nil, show (uuidSimple (case == .upper) u).length = 32 by rw [uuidSimple, Hex.hexEncode_length, hu]] at this
  · have := view_copy u (uuidHyphenated (case == .upper) u) [] 0
    rwa [List.drop_nil, List.append_nil, show (uuidHyphenated (case == .upper) u).length = 36 by simp [uuidHyphenated, Hex.hexEncode_length, hu]] at this

example : sample.length = 16 ∧ noHyphens (Spec.ascii "550e8400-e29b-41d4-a716-446655440000") = Spec.ascii "550e8400e29b41d4a716446655440000" := by
  decide +kernel

end Simd.Uuid
