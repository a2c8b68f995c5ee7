import Verif.Lemmas.Forgiving
/-
base64-simd, forgiving decoding: properties C11, C12, C18.

`fi` is the implementation picked for the whitespace scanner (any), `di` the one picked for the decoder (any but bare
SSE2, which is not among the decoder's targets). Other conventions as in `Verif.Props.Base64`.
-/
namespace Simd
namespace Base64
open Vs Spec

/-! ### C18: the scanner and the removal -/

/-- C18: the scanner returns `k` such that the first `k` bytes are not whitespace and, unless `k` is the length, byte `k` is. -/
theorem C18_find (fi : Option Isa) (xs : List Byte) :
    ∃ k, (find_non_ascii_whitespace fi (whole 0 xs.length)).run (Mem.ofBufs [xs.map some]) = .ok k (Mem.ofBufs [xs.map some]) ∧
      k ≤ xs.length ∧ (∀ j, (h : j < xs.length) → j < k → isWs xs[j] = false) ∧ (∀ h : k < xs.length, isWs xs[k] = true) := by
  have hw := find_wp fi (m := Mem.ofBufs [xs.map some]) (p := ⟨0, 0⟩) (xs := xs) (Q := fun r m' => r = firstWs xs ∧ m' = Mem.ofBufs [xs.map some])
    (E := fun _ => False) (hasBytes_ofBufs' rfl) ⟨rfl, rfl⟩
  rcases wp_out hw with ⟨a, m', hr, rfl, rfl⟩ | ⟨m', hr, h⟩
  · refine ⟨_, hr, firstWs_le xs, fun j hj hk => ?_, fun h => ?_⟩
    · have := List.not_of_lt_findIdx (p := isWs) (xs := xs) (i := j) hk
      simpa using this
    · exact List.findIdx_getElem (p := isWs) (xs := xs) (w := h)
  · exact h.elim

example : (find_non_ascii_whitespace (some .sse2) (whole 0 18)).run (Mem.ofBufs [(List.replicate 17 0x41#8 ++ [0x20#8]).map some]) =
    .ok 17 (Mem.ofBufs [(List.replicate 17 0x41#8 ++ [0x20#8]).map some]) := by
  obtain ⟨k, h1, h2, h3, h4⟩ := C18_find (some .sse2) (List.replicate 17 0x41#8 ++ [0x20#8])
  have hk : k = 17 := by
    rcases Nat.lt_trichotomy k 17 with h | h | h
    · have := h4 (by simp; omega)
      simp only [List.getElem_append_left (show k < (List.replicate 17 0x41#8).length by simp; omega), List.getElem_replicate] at this
      exact absurd this (by decide)
    · exact h
    · have := h3 17 (by simp) h
      exact absurd this (by decide)
  subst hk; exact h1

/-- C18: in-place removal returns the front part of the data, which holds exactly the non-whitespace bytes in order. The bytes
of the data behind it are kept, and so is everything (`rest`) behind the slice. -/
theorem C18_remove (fi : Option Isa) (xs : List Byte) (rest : List Cell) :
    (remove_ascii_whitespace_inplace fi (whole 0 xs.length)).run (Mem.ofBufs [xs.map some ++ rest]) =
      .ok (whole 0 (stripWs xs).length) (Mem.ofBufs [(stripWs xs ++ xs.drop (stripWs xs).length).map some ++ rest]) := by
  have hs := stripWs_length xs
  have hw := remove_inplace_wp fi (m := Mem.ofBufs [xs.map some ++ rest]) (p := ⟨0, 0⟩) (xs := xs)
    (Q := fun s m' => s = whole 0 (stripWs xs).length ∧ m' = (Mem.ofBufs [xs.map some ++ rest]).write ⟨0, 0⟩ (stripWs xs))
    (E := fun _ => False) (hasBytes_ofBufs rfl) ⟨rfl, rfl⟩
  rcases wp_out hw with ⟨a, m', hr, rfl, rfl⟩ | ⟨m', hr, h⟩
  · refine hr.trans ?_
    rw [ofBufs_write (l := xs.map some ++ rest) rfl (by simp; omega)]
    simp [List.drop_append, show (stripWs xs).length - xs.length = 0 by omega]
  · exact h.elim

example : stripWs [0x61#8, 0x20#8, 0x62#8, 0x0a#8, 0x0b#8] = [0x61#8, 0x62#8, 0x0b#8] := by decide

/-! ### C12 (copy and in place) and C11 -/

/-- C11 and C12, success: in-place forgiving decoding returns the front part of the data, holding the bytes of the WHATWG algorithm. -/
theorem C12_inplace_ok (fi : Option Isa) {di : Option Isa} (hd : di ≠ some .sse2) (xs ys : List Byte) (h : forgivingDecode xs = some ys) :
    ∃ xs' : List Byte, (forgiving_decode_inplace fi di (whole 0 xs.length)).run (Mem.ofBufs [xs.map some]) =
      .ok (whole 0 ys.length) (Mem.ofBufs [xs'.map some]) ∧ xs'.length = xs.length ∧ xs'.take ys.length = ys := by
  rcases wp_out (forgiving_inplace_wp fi hd (m := Mem.ofBufs [xs.map some]) (p := ⟨0, 0⟩) (xs := xs) (hasBytes_ofBufs' rfl))
    with ⟨a, m', hr, zs, hz, rfl, hb, hso⟩ | ⟨m', hr, hn, hso⟩
  · rw [h] at hz; cases hz
    obtain ⟨l', rfl, h1, h2, h3⟩ := sameOutside_ofBufs hso (l := xs.map some) rfl (by simp)
    obtain ⟨xs', rfl⟩ := h3 xs rfl
    refine ⟨xs', hr, by simpa using h1, ?_⟩
    have hb' := hb.bound
    rw [ofBufs_size (l := xs'.map some) rfl] at hb'
    simp at hb'
    apply List.ext_getElem (by simp; omega)
    intro i h1 h2
    have := hb.get h2
    rw [ofBufs_cell (l := xs'.map some) rfl] at this
    simp at this h1
    rw [List.getElem_take]
    have hi : i < xs'.length := by omega
    rw [List.getElem?_eq_getElem hi] at this
    simpa using this
  · rw [h] at hn; cases hn

/-- C11 and C12, failure. -/
theorem C12_inplace_err (fi : Option Isa) {di : Option Isa} (hd : di ≠ some .sse2) (xs : List Byte) (h : forgivingDecode xs = none) :
    ∃ xs' : List Byte, (forgiving_decode_inplace fi di (whole 0 xs.length)).run (Mem.ofBufs [xs.map some]) =
      .err (Mem.ofBufs [xs'.map some]) ∧ xs'.length = xs.length := by
  rcases wp_out (forgiving_inplace_wp fi hd (m := Mem.ofBufs [xs.map some]) (p := ⟨0, 0⟩) (xs := xs) (hasBytes_ofBufs' rfl))
    with ⟨a, m', hr, zs, hz, rfl, hb, hso⟩ | ⟨m', hr, hn, hso⟩
  · rw [h] at hz; cases hz
  · obtain ⟨l', rfl, h1, h2, h3⟩ := sameOutside_ofBufs hso (l := xs.map some) rfl (by simp)
    obtain ⟨xs', rfl⟩ := h3 xs rfl
    exact ⟨xs', hr, by simpa using h1⟩

/-- C11 and C12, success: `forgiving_decode` returns the front part of the destination holding the bytes of the WHATWG algorithm;
the destination behind the first `src.len()` bytes is kept. -/
theorem C12_copy_ok (fi : Option Isa) {di : Option Isa} (hd : di ≠ some .sse2) (xs ys : List Byte) (ds : List Cell) (hl : xs.length ≤ ds.length)
    (h : forgivingDecode xs = some ys) :
    ∃ ds' : List Cell, (forgiving_decode fi di (whole 0 xs.length) (whole 1 ds.length)).run (Mem.ofBufs [xs.map some, ds]) =
      .ok (whole 1 ys.length) (Mem.ofBufs [xs.map some, ds']) ∧ ds'.length = ds.length ∧ ds'.take ys.length = ys.map some ∧
      ds'.drop xs.length = ds.drop xs.length := by
  rcases wp_out (forgiving_decode_wp fi hd (m := Mem.ofBufs [xs.map some, ds]) (p := ⟨0, 0⟩) (q := ⟨1, 0⟩) (xs := xs) (hasBytes_ofBufs' rfl)
    (canWrite_ofBufs (Nat.le_refl _)) hl (.inl (by simp))) with ⟨a, m', hr, zs, hz, rfl, hb, hso, hle⟩ | ⟨m', hr, hn, hso⟩
  · rw [h] at hz; cases hz
    obtain ⟨l', rfl, h1, h2, -⟩ := sameOutside_ofBufs hso (l := ds) rfl hl
    refine ⟨l', hr, h1, ?_, h2⟩
    apply List.ext_getElem (by simp; omega)
    intro i hi1 hi2
    have := hb.get (i := i) (by simpa using hi2)
    rw [ofBufs_cell (l := l') rfl] at this
    simp at this hi1
    rw [List.getElem_take]
    rw [List.getElem?_eq_getElem (by omega)] at this
    simpa using this
  · rw [h] at hn; cases hn

/-- C11 and C12, failure. -/
theorem C12_copy_err (fi : Option Isa) {di : Option Isa} (hd : di ≠ some .sse2) (xs : List Byte) (ds : List Cell) (hl : xs.length ≤ ds.length)
    (h : forgivingDecode xs = none) :
    ∃ ds' : List Cell, (forgiving_decode fi di (whole 0 xs.length) (whole 1 ds.length)).run (Mem.ofBufs [xs.map some, ds]) =
      .err (Mem.ofBufs [xs.map some, ds']) ∧ ds'.length = ds.length ∧ ds'.drop xs.length = ds.drop xs.length := by
  rcases wp_out (forgiving_decode_wp fi hd (m := Mem.ofBufs [xs.map some, ds]) (p := ⟨0, 0⟩) (q := ⟨1, 0⟩) (xs := xs) (hasBytes_ofBufs' rfl)
    (canWrite_ofBufs (Nat.le_refl _)) hl (.inl (by simp))) with ⟨a, m', hr, zs, hz, rfl, hb, hso, hle⟩ | ⟨m', hr, hn, hso⟩
  · rw [h] at hz; cases hz
  · obtain ⟨l', rfl, h1, h2, -⟩ := sameOutside_ofBufs hso (l := ds) rfl hl
    exact ⟨l', hr, h1, h2⟩

/-- C12: `forgiving_decode` fails without touching anything if the destination is shorter than the whole input. -/
theorem C12_copy_short (fi di : Option Isa) (xs : List Byte) (ds : List Cell) (hl : ds.length < xs.length) :
    (forgiving_decode fi di (whole 0 xs.length) (whole 1 ds.length)).run (Mem.ofBufs [xs.map some, ds]) = .err (Mem.ofBufs [xs.map some, ds]) := by
  unfold forgiving_decode
  exact run_ensure_false (decide_eq_false (by simp only [whole]; omega))

/-- C11: `forgiving_decode_to_vec` returns exactly the bytes of the WHATWG algorithm, or an error if that fails. -/
theorem C11_to_vec (P : Plat) (extra : Nat) (fi : Option Isa) {di : Option Isa} (hd : di ≠ some .sse2) (xs : List Byte)
    (hx : xs.length + extra ≤ P.isizeMax) :
    let out := (forgiving_decode_to_vec P extra fi di (whole 0 xs.length)).run (Mem.ofBufs [xs.map some])
    (∀ ys, forgivingDecode xs = some ys → ∃ v m', out = .ok v m' ∧ m'.view v.slice = ys.map some ∧ v.len ≤ v.cap ∧
      m'.view (whole 0 xs.length) = xs.map some) ∧
    (forgivingDecode xs = none → ∃ m', out = .err m') := by
  intro out
  have hb : HasBytes (Mem.ofBufs [xs.map some]) ⟨0, 0⟩ xs := hasBytes_ofBufs' rfl
  have hfind : (find_non_ascii_whitespace fi (whole 0 xs.length)).run (Mem.ofBufs [xs.map some]) = .ok (firstWs xs) (Mem.ofBufs [xs.map some]) := by
    rcases wp_out (find_wp fi (Q := fun r m' => r = firstWs xs ∧ m' = Mem.ofBufs [xs.map some]) (E := fun _ => False) hb ⟨rfl, rfl⟩)
      with ⟨a, m', hr, rfl, rfl⟩ | ⟨m', hr, h⟩
    · exact hr
    · exact h.elim
  have hout : out = (forgiving_decode_to_vec P extra fi di (whole 0 xs.length)).run (Mem.ofBufs [xs.map some]) := rfl
  unfold forgiving_decode_to_vec at hout
  rw [run_bind, hfind] at hout
  simp only at hout
  rw [show assert (decide (firstWs xs ≤ (whole 0 xs.length).len)) = pure () by
    rw [show decide (firstWs xs ≤ (whole 0 xs.length).len) = true from decide_eq_true (firstWs_le xs)]; rfl] at hout
  by_cases h : firstWs xs = xs.length
  · rw [if_pos (by exact h)] at hout
    have ht := (decApi hd STANDARD_FORGIVING).toVec_out P xs (by omega)
    have e : (decApi hd STANDARD_FORGIVING).full xs = forgivingDecode xs := by rw [full_eq, ← full_strip, stripWs_none h]
    rw [e] at ht
    constructor
    · intro ys hy
      refine ⟨_, _, hout.trans (ht.1 ys hy), ?_, Nat.le_refl _, ?_⟩
      · exact (hasBytes_ofBufs' (b := 1) (xs := ys) rfl).view
      · exact (hasBytes_ofBufs' (b := 0) (xs := xs) rfl).view
    · intro hn
      obtain ⟨m', h1⟩ := ht.2 hn
      exact ⟨m', hout.trans h1⟩
  · rw [if_neg (by exact h)] at hout
    have hw : wp (do
        let vec ← vec_with_capacity P extra xs.length
        let ans ← copy_and_decode di (whole 0 xs.length) (firstWs xs) ⟨vec.buf, 0⟩
        vec.set_len ans.len)
        (fun v m' => ∃ ys, forgivingDecode xs = some ys ∧ m'.view v.slice = ys.map some ∧ v.len ≤ v.cap ∧ m'.view (whole 0 xs.length) = xs.map some)
        (fun _ => forgivingDecode xs = none) (Mem.ofBufs [xs.map some]) := by
      rw [wp_bind]
      unfold vec_with_capacity
      rw [if_pos hx, wp_alloc, wp_pure', wp_bind]
      have hn : (Mem.ofBufs [xs.map some]).nbuf = 1 := rfl
      rw [hn, ofBufs_alloc]
      have hb2 : HasBytes (Mem.ofBufs ([xs.map some] ++ [List.replicate (xs.length + extra) none])) ⟨0, 0⟩ xs := hasBytes_ofBufs' rfl
      refine wp_mono (copy_and_decode_wp hd hb2 (q := ⟨1, 0⟩) (by
        unfold CanWrite; rw [ofBufs_size (l := List.replicate (xs.length + extra) none) rfl]; simp) (.inl (by simp))) ?_ ?_
      · rintro s m' ⟨ys, hy, rfl, hbs, hso, hle⟩
        refine set_len_wp (xs := ys) hbs rfl (by simp; omega) ?_
        refine ⟨ys, hy, hbs.view, by simp; omega, ?_⟩
        refine HasBytes.view (p := ⟨0, 0⟩) (xs := xs) ?_
        refine ⟨by rw [hso.size]; exact hb2.bound, fun i hi => ?_⟩
        rw [hso.cell _ _ (by simp)]; exact hb2.get hi
      · rintro m' ⟨hn, -⟩
        exact hn
    rcases wp_out hw with ⟨v, m', hr, ys, hy, hv, hc, hs⟩ | ⟨m', hr, hn⟩
    · refine ⟨fun zs hz => ?_, fun hn => by rw [hy] at hn; cases hn⟩
      rw [hy] at hz; cases hz
      exact ⟨v, m', hout.trans hr, hv, hc, hs⟩
    · exact ⟨fun zs hz => (by rw [hn] at hz; cases hz), fun _ => ⟨m', hout.trans hr⟩⟩

/-- "h\ne l\tlo" (remainder 1 modulo 4) fails; " aGVsbG8 = " decodes to "hello"; surplus bits are dropped ("AB==" gives 0). -/
example : forgivingDecode [0x68#8, 0x0a#8, 0x65#8, 0x20#8, 0x6c#8, 0x09#8, 0x6c#8, 0x6f#8] = none ∧
    forgivingDecode [0x20#8, 0x61#8, 0x47#8, 0x56#8, 0x73#8, 0x62#8, 0x47#8, 0x38#8, 0x20#8, 0x3d#8, 0x20#8] =
      some [0x68#8, 0x65#8, 0x6c#8, 0x6c#8, 0x6f#8] ∧
    forgivingDecode [0x41#8, 0x42#8, 0x3d#8, 0x3d#8] = some [0#8] := by
  decide +kernel

/-- C12: the three functions agree: same bytes, or all fail. -/
theorem C12_agree (P : Plat) (extra : Nat) (fi fj fk : Option Isa) {di dj dk : Option Isa} (hi : di ≠ some .sse2) (hj : dj ≠ some .sse2) (hk : dk ≠ some .sse2)
    (xs : List Byte) (ds : List Cell) (hx : xs.length + extra ≤ P.isizeMax) (hl : xs.length ≤ ds.length) (ys : List Byte) :
    ((∃ s m', (forgiving_decode fi di (whole 0 xs.length) (whole 1 ds.length)).run (Mem.ofBufs [xs.map some, ds]) = .ok s m' ∧ m'.view s = ys.map some) ↔
      ∃ s m', (forgiving_decode_inplace fj dj (whole 0 xs.length)).run (Mem.ofBufs [xs.map some]) = .ok s m' ∧ m'.view s = ys.map some) ∧
    ((∃ s m', (forgiving_decode_inplace fj dj (whole 0 xs.length)).run (Mem.ofBufs [xs.map some]) = .ok s m' ∧ m'.view s = ys.map some) ↔
      ∃ v m', (forgiving_decode_to_vec P extra fk dk (whole 0 xs.length)).run (Mem.ofBufs [xs.map some]) = .ok v m' ∧ m'.view v.slice = ys.map some) := by
  have hc : (∃ s m', (forgiving_decode fi di (whole 0 xs.length) (whole 1 ds.length)).run (Mem.ofBufs [xs.map some, ds]) = .ok s m' ∧ m'.view s = ys.map some) ↔
      forgivingDecode xs = some ys := by
    cases hf : forgivingDecode xs with
    | none =>
      obtain ⟨_, h1, -⟩ := C12_copy_err fi hi xs ds hl hf
      rw [h1]; simp
    | some zs =>
      obtain ⟨ds', h1, h2, h3, -⟩ := C12_copy_ok fi hi xs zs ds hl hf
      have hv : (Mem.ofBufs [xs.map some, ds']).view (whole 1 zs.length) = zs.map some := by
        rw [← List.take_append_drop zs.length ds', h3]
        exact (hasBytes_ofBufs (b := 1) (xs := zs) rfl).view
      rw [h1]
      constructor
      · rintro ⟨s, m', hr, hv'⟩
        cases hr
        rw [hv] at hv'
        rw [map_some_inj hv']
      · intro e; cases e
        exact ⟨_, _, rfl, hv⟩
  have hp : (∃ s m', (forgiving_decode_inplace fj dj (whole 0 xs.length)).run (Mem.ofBufs [xs.map some]) = .ok s m' ∧ m'.view s = ys.map some) ↔
      forgivingDecode xs = some ys := by
    cases hf : forgivingDecode xs with
    | none =>
      obtain ⟨_, h1, -⟩ := C12_inplace_err fj hj xs hf
      rw [h1]; simp
    | some zs =>
      obtain ⟨xs', h1, h2, h3⟩ := C12_inplace_ok fj hj xs zs hf
      have hv : (Mem.ofBufs [xs'.map some]).view (whole 0 zs.length) = zs.map some := by
        rw [← List.take_append_drop zs.length xs', h3]
        exact (hasBytes_ofBufs (b := 0) (xs := zs) (rest := (xs'.drop zs.length).map some) (by simp)).view
      rw [h1]
      constructor
      · rintro ⟨s, m', hr, hv'⟩
        cases hr
        rw [hv] at hv'
        rw [map_some_inj hv']
      · intro e; cases e
        exact ⟨_, _, rfl, hv⟩
  have hv : (∃ v m', (forgiving_decode_to_vec P extra fk dk (whole 0 xs.length)).run (Mem.ofBufs [xs.map some]) = .ok v m' ∧ m'.view v.slice = ys.map some) ↔
      forgivingDecode xs = some ys := by
    have ht := C11_to_vec P extra fk hk xs hx
    cases hf : forgivingDecode xs with
    | none =>
      obtain ⟨_, h1⟩ := ht.2 hf
      rw [h1]; simp
    | some zs =>
      obtain ⟨v, m', h1, h2, -⟩ := ht.1 zs hf
      rw [h1]
      constructor
      · rintro ⟨s, m'', hr, hv'⟩
        cases hr
        rw [h2] at hv'
        rw [map_some_inj hv']
      · intro e; cases e
        exact ⟨_, _, rfl, h2⟩
  exact ⟨hc.trans hp.symm, hp.trans hv.symm⟩

end Base64
end Simd
