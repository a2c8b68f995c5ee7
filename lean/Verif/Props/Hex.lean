import Verif.Lemmas.HexSpec
import Verif.Lemmas.Api
import Verif.Model.HexHeap
import Verif.Spec.Utf8
/-
hex-simd: properties C29-C37.

Conventions. `i : Option Isa` is the implementation the dispatcher picked (`none` = scalar fallback);
the theorems hold for every instruction set, in particular for the dispatchable ones (multiversion.rs, `Verif.Model.Dispatch`). The source slice is buffer 0 and the destination slice
is buffer 1, each slice being a whole allocation, so any access outside a slice is undefined behaviour.
`ds : List Cell` is the previous content of the destination, possibly uninitialised.
A statement `run … = .ok …` or `= .err …` in particular says: no panic, no undefined behaviour.
-/
namespace Simd
namespace Hex
open Vs

theorem encode_does (P : Plat) (i : Option Isa) (case : AsciiCase) (xs : List Byte) (ds : List Cell) (hd : ds.length ≤ P.usizeMax)
    (h : 2 * xs.length ≤ ds.length) :
    Does (encode P i (whole 0 xs.length) (whole 1 ds.length) case) (whole 1 (2 * xs.length)) (encS case) xs ⟨1, 0⟩ (2 * xs.length)
      (Mem.ofBufs [xs.map some, ds]) := by
  unfold encode whole
  refine Does.ensure (by simp; omega) ?_
  have := (encode_auto_spec i case (m := Mem.ofBufs [xs.map some, ds]) (p := ⟨0, 0⟩) (q := ⟨1, 0⟩) (hasBytes_ofBufs' rfl) rfl
    (canWrite_ofBufs h) (.inl (by simp))).ret (f := fun _ => (⟨⟨1, 0⟩, 2 * xs.length⟩ : Slice))
  have e : P.mulU xs.length 2 = some (2 * xs.length) := by rw [Plat.mulU, if_pos (by omega), Nat.mul_comm]
  simp only [e]
  exact this

/-- C29: encoding writes, for every byte, the two hexadecimal digits of the requested case, and nothing else;
the returned slice covers exactly them. -/
theorem C29_encode (P : Plat) (i : Option Isa) (case : AsciiCase) (xs : List Byte) (ds : List Cell) (hd : ds.length ≤ P.usizeMax)
    (h : 2 * xs.length ≤ ds.length) :
    (encode P i (whole 0 xs.length) (whole 1 ds.length) case).run (Mem.ofBufs [xs.map some, ds]) =
      .ok (whole 1 (2 * xs.length))
        (Mem.ofBufs [xs.map some, (Spec.hexEncode (case == .upper) xs).map some ++ ds.drop (2 * xs.length)]) := by
  have := (encode_does P i case xs ds hd h).copy_ok h (ys := hexEnc case xs) rfl
  rw [this.2, hexEnc_spec]

example : (2 * [0xde#8, 0xad#8].length ≤ (List.replicate 5 (none : Cell)).length) ∧
    Spec.hexEncode false [0xde#8, 0xad#8] = [0x64#8, 0x65#8, 0x61#8, 0x64#8] := by decide

/-- C30: `encode` fails iff the destination is shorter than `2 * src.len()`, and then changes nothing. -/
theorem C30_encode_contract (P : Plat) (i : Option Isa) (case : AsciiCase) (xs : List Byte) (ds : List Cell) (hd : ds.length ≤ P.usizeMax) :
    let out := (encode P i (whole 0 xs.length) (whole 1 ds.length) case).run (Mem.ofBufs [xs.map some, ds])
    (ds.length < 2 * xs.length → out = .err (Mem.ofBufs [xs.map some, ds])) ∧
    (2 * xs.length ≤ ds.length → ∃ new : List Byte, new.length = 2 * xs.length ∧
      out = .ok (whole 1 (2 * xs.length)) (Mem.ofBufs [xs.map some, new.map some ++ ds.drop (2 * xs.length)])) := by
  refine ⟨fun h => ?_, fun h => ⟨_, hexEncode_length _ _, C29_encode P i case xs ds hd h⟩⟩
  unfold encode whole
  exact run_ensure_false (by simp; omega)

example : ([none, none, none] : List Cell).length < 2 * [1#8, 2#8].length := by decide

theorem decode_does (i : Option Isa) (xs : List Byte) (ds : List Cell) (hx : xs.length % 2 = 0) (h : xs.length / 2 ≤ ds.length) :
    Does (decode i (whole 0 xs.length) (whole 1 ds.length)) (whole 1 (xs.length / 2)) hexDec xs ⟨1, 0⟩ (xs.length / 2)
      (Mem.ofBufs [xs.map some, ds]) := by
  unfold decode whole
  refine Does.ensure (by simp; omega) ?_
  have := (decode_auto_spec i (m := Mem.ofBufs [xs.map some, ds]) (p := ⟨0, 0⟩) (q := ⟨1, 0⟩) (k := xs.length / 2) (hasBytes_ofBufs' rfl)
    (by omega) (canWrite_ofBufs h) (.inl (by simp))).ret (f := fun _ => (⟨⟨1, 0⟩, xs.length / 2⟩ : Slice))
  rw [show 2 * (xs.length / 2) = xs.length by omega] at this
  exact this

theorem isHexOf_length {xs ys : List Byte} (h : Spec.IsHexOf xs ys) : xs.length = 2 * ys.length := by
  have := congrArg List.length h
  rwa [List.length_map, hexEncode_length] at this

theorem isHexOf_unique {xs ys zs : List Byte} (h : Spec.IsHexOf xs ys) (h' : Spec.IsHexOf xs zs) : ys = zs := by
  have hl : xs.length % 2 = 0 := by have := isHexOf_length h; omega
  have := (hexDec_spec xs ys hl).2 h
  rw [(hexDec_spec xs zs hl).2 h'] at this
  exact (Option.some.inj this).symm

/-- C31 and C33, success: if the text is hexadecimal text (any mixture of cases) for `ys` and the destination
has room, `decode` writes exactly `ys` and leaves the rest of the destination unchanged. -/
theorem C31_decode_ok (i : Option Isa) (xs ys : List Byte) (ds : List Cell) (hy : Spec.IsHexOf xs ys) (h : ys.length ≤ ds.length) :
    (decode i (whole 0 xs.length) (whole 1 ds.length)).run (Mem.ofBufs [xs.map some, ds]) =
      .ok (whole 1 ys.length) (Mem.ofBufs [xs.map some, ys.map some ++ ds.drop ys.length]) := by
  have hl := isHexOf_length hy
  have hl2 : xs.length / 2 = ys.length := by omega
  have := (decode_does i xs ds (by omega) (by omega)).copy_ok (by omega) ((hexDec_spec xs ys (by omega)).2 hy)
  rw [hl2] at this
  exact this.2

example : Spec.IsHexOf [0x44#8, 0x65#8, 0x61#8, 0x44#8] [0xde#8, 0xad#8] := by unfold Spec.IsHexOf; decide

/-- C31 and C33, failure: if the text is not hexadecimal text or the destination is too short, `decode` fails,
and the destination behind the first `len / 2` bytes is unchanged. -/
theorem C31_decode_err (i : Option Isa) (xs : List Byte) (ds : List Cell)
    (h : (¬ ∃ ys, Spec.IsHexOf xs ys) ∨ ds.length < xs.length / 2) :
    ∃ ds', (decode i (whole 0 xs.length) (whole 1 ds.length)).run (Mem.ofBufs [xs.map some, ds]) = .err (Mem.ofBufs [xs.map some, ds']) ∧
      ds'.length = ds.length ∧ ds'.drop (xs.length / 2) = ds.drop (xs.length / 2) := by
  by_cases he : xs.length % 2 = 0 ∧ xs.length / 2 ≤ ds.length
  · refine (decode_does i xs ds he.1 he.2).copy_err he.2 ?_
    cases hc : hexDec xs with
    | none => rfl
    | some ys =>
      rcases h with h | h
      · exact (h ⟨ys, (hexDec_spec xs ys he.1).1 hc⟩).elim
      · omega
  · refine ⟨ds, ?_, rfl, rfl⟩
    unfold decode whole
    refine run_ensure_false ?_
    simp; omega

example : ¬ ∃ ys, Spec.IsHexOf [0x67#8, 0x30#8] ys := by
  rintro ⟨ys, h⟩
  have := (hexDec_spec _ _ (by decide)).2 h
  rw [show hexDec [0x67#8, 0x30#8] = none by decide +kernel] at this
  cases this

/-- C31: `decode` returns `Ok(ys)` iff the text has even length and its lower-case form is the lower-case hexadecimal text of `ys`. -/
theorem C31_decode_iff (i : Option Isa) (xs ys : List Byte) (ds : List Cell) (h : xs.length / 2 ≤ ds.length) :
    (∃ s m', (decode i (whole 0 xs.length) (whole 1 ds.length)).run (Mem.ofBufs [xs.map some, ds]) = .ok s m' ∧ m'.view s = ys.map some) ↔
      xs.length % 2 = 0 ∧ xs.map Spec.toLower = Spec.hexEncode false ys := by
  have hview : ∀ zs : List Byte, (Mem.ofBufs [xs.map some, zs.map some ++ ds.drop zs.length]).view (whole 1 zs.length) = zs.map some :=
    fun zs => (hasBytes_ofBufs (b := 1) (xs := zs) rfl).view
  constructor
  · rintro ⟨s, m', hr, hv⟩
    by_cases hx : ∃ zs, Spec.IsHexOf xs zs
    · obtain ⟨zs, hz⟩ := hx
      have hl := isHexOf_length hz
      rw [C31_decode_ok i xs zs ds hz (by omega)] at hr
      cases hr
      rw [hview] at hv
      have : zs = ys := List.map_inj_right (fun _ _ h => Option.some.inj h) |>.1 hv
      subst this
      exact ⟨by omega, hz⟩
    · obtain ⟨ds', hr', -⟩ := C31_decode_err i xs ds (.inl hx)
      rw [hr'] at hr; cases hr
  · rintro ⟨-, hy⟩
    have hl := isHexOf_length hy
    exact ⟨_, _, C31_decode_ok i xs ys ds hy (by omega), hview ys⟩

theorem isHexOf_encode (u : Bool) (xs : List Byte) : Spec.IsHexOf (Spec.hexEncode u xs) xs := by
  have key : ∀ (u : Bool) (n : Fin 16), Spec.toLower (Spec.hexDigit u n.val) = Spec.hexDigit false n.val := by decide +kernel
  unfold Spec.IsHexOf Spec.hexEncode
  rw [List.map_flatMap]
  congr 1
  funext b
  have hb := b.isLt
  have e1 := key u ⟨b.toNat / 16, by omega⟩
  have e2 := key u ⟨b.toNat % 16, by omega⟩
  simp only at e1 e2
  rw [List.map_cons, List.map_cons, List.map_nil, e1, e2]

/-- C32: decoding (with any implementation `j`) what any implementation `i` encoded gives back the input. -/
theorem C32_round_trip (P : Plat) (i j : Option Isa) (case : AsciiCase) (xs : List Byte) (ds es : List Cell) (hd : ds.length ≤ P.usizeMax)
    (h : 2 * xs.length ≤ ds.length) (he : xs.length ≤ es.length) :
    ∃ (text : List Byte) (s : Slice) (m' : Mem), (encode P i (whole 0 xs.length) (whole 1 ds.length) case).run (Mem.ofBufs [xs.map some, ds]) = .ok s m' ∧
      m'.view s = text.map some ∧
      (decode j (whole 0 text.length) (whole 1 es.length)).run (Mem.ofBufs [text.map some, es]) =
        .ok (whole 1 xs.length) (Mem.ofBufs [text.map some, xs.map some ++ es.drop xs.length]) := by
  refine ⟨Spec.hexEncode (case == .upper) xs, _, _, C29_encode P i case xs ds hd h, ?_, C31_decode_ok j _ xs es (isHexOf_encode _ _) he⟩
  have := (hasBytes_ofBufs (bufs := [xs.map some, (Spec.hexEncode (case == .upper) xs).map some ++ ds.drop (2 * xs.length)]) (b := 1) rfl).view
  rw [hexEncode_length] at this
  exact this

/-- C33: a text that is hexadecimal text fails only if `dst.len() < len / 2`. -/
theorem C33_fails_only_if_short (i : Option Isa) (xs ys : List Byte) (ds : List Cell) (hy : Spec.IsHexOf xs ys) {m'}
    (h : (decode i (whole 0 xs.length) (whole 1 ds.length)).run (Mem.ofBufs [xs.map some, ds]) = .err m') : ds.length < xs.length / 2 := by
  by_contra hc
  have hl := isHexOf_length hy
  rw [C31_decode_ok i xs ys ds hy (by omega)] at h
  cases h

theorem decode_inplace_does (i : Option Isa) (xs : List Byte) (hx : xs.length % 2 = 0) :
    Does (decode_inplace i (whole 0 xs.length)) (whole 0 (xs.length / 2)) hexDec xs ⟨0, 0⟩ (xs.length / 2) (Mem.ofBufs [xs.map some]) := by
  unfold decode_inplace whole
  refine Does.ensure (by simp; omega) ?_
  have := (decode_auto_spec i (m := Mem.ofBufs [xs.map some]) (p := ⟨0, 0⟩) (q := ⟨0, 0⟩) (k := xs.length / 2) (hasBytes_ofBufs' rfl)
    (by omega) (by unfold CanWrite; rw [ofBufs_size (l := xs.map some) rfl]; simp; omega) (.inr (.inl (Nat.le_refl _)))).ret (f := fun _ => (⟨⟨0, 0⟩, xs.length / 2⟩ : Slice))
  rw [show 2 * (xs.length / 2) = xs.length by omega] at this
  exact this

/-- C34, success: in-place decoding puts the same bytes at the front of the data and leaves the rest unchanged. -/
theorem C34_inplace_ok (i : Option Isa) (xs ys : List Byte) (hy : Spec.IsHexOf xs ys) :
    (decode_inplace i (whole 0 xs.length)).run (Mem.ofBufs [xs.map some]) =
      .ok (whole 0 ys.length) (Mem.ofBufs [(ys ++ xs.drop ys.length).map some]) := by
  have hl := isHexOf_length hy
  have hl2 : xs.length / 2 = ys.length := by omega
  have := (decode_inplace_does i xs (by omega)).inplace_ok (by omega) ((hexDec_spec xs ys (by omega)).2 hy)
  rw [hl2] at this
  exact this.2

/-- C34, failure: in-place decoding fails on every other text and leaves `data[len/2..]` unchanged. -/
theorem C34_inplace_err (i : Option Isa) (xs : List Byte) (h : ¬ ∃ ys, Spec.IsHexOf xs ys) :
    ∃ xs' : List Byte, (decode_inplace i (whole 0 xs.length)).run (Mem.ofBufs [xs.map some]) = .err (Mem.ofBufs [xs'.map some]) ∧
      xs'.length = xs.length ∧ xs'.drop (xs.length / 2) = xs.drop (xs.length / 2) := by
  by_cases he : xs.length % 2 = 0
  · refine (decode_inplace_does i xs he).inplace_err (by omega) ?_
    cases hc : hexDec xs with
    | none => rfl
    | some ys => exact (h ⟨ys, (hexDec_spec xs ys he).1 hc⟩).elim
  · refine ⟨xs, ?_, rfl, rfl⟩
    unfold decode_inplace whole
    exact run_ensure_false (by simp; omega)

/-- C34: `decode_inplace` (implementation `i`) and `decode` into a large enough buffer (implementation `j`) agree. -/
theorem C34_inplace_eq_copy (i j : Option Isa) (xs ys : List Byte) (ds : List Cell) (h : xs.length / 2 ≤ ds.length) :
    (∃ s m', (decode_inplace i (whole 0 xs.length)).run (Mem.ofBufs [xs.map some]) = .ok s m' ∧ m'.view s = ys.map some) ↔
    (∃ s m', (decode j (whole 0 xs.length) (whole 1 ds.length)).run (Mem.ofBufs [xs.map some, ds]) = .ok s m' ∧ m'.view s = ys.map some) := by
  rw [C31_decode_iff j xs ys ds h]
  have hview : ∀ zs : List Byte, (Mem.ofBufs [(zs ++ xs.drop zs.length).map some]).view (whole 0 zs.length) = zs.map some :=
    fun zs => (hasBytes_ofBufs (b := 0) (xs := zs) (rest := (xs.drop zs.length).map some) (by simp)).view
  constructor
  · rintro ⟨s, m', hr, hv⟩
    by_cases hx : ∃ zs, Spec.IsHexOf xs zs
    · obtain ⟨zs, hz⟩ := hx
      have hl := isHexOf_length hz
      rw [C34_inplace_ok i xs zs hz] at hr
      cases hr
      rw [hview] at hv
      have : zs = ys := List.map_inj_right (fun _ _ h => Option.some.inj h) |>.1 hv
      subst this
      exact ⟨by omega, hz⟩
    · obtain ⟨ds', hr', -⟩ := C34_inplace_err i xs hx
      rw [hr'] at hr; cases hr
  · rintro ⟨-, hy⟩
    exact ⟨_, _, C34_inplace_ok i xs ys hy, hview ys⟩

/-- C35: `check` accepts exactly the texts all of whose characters are hexadecimal digits. -/
theorem C35_check (i : Option Isa) (xs : List Byte) :
    (check i (whole 0 xs.length)).run (Mem.ofBufs [xs.map some]) =
      if ∀ c ∈ xs, Spec.isHexDigit c then .ok () (Mem.ofBufs [xs.map some]) else .err (Mem.ofBufs [xs.map some]) := by
  have h := check_auto_spec i (m := Mem.ofBufs [xs.map some]) (p := ⟨0, 0⟩) (xs := xs) (hasBytes_ofBufs' rfl) rfl
  split <;> rename_i hc
  · exact h.run_ok ((hexOk_spec xs).2 hc)
  · exact h.run_err (Bool.eq_false_iff.2 fun hk => hc ((hexOk_spec xs).1 hk))

example : (∀ c ∈ [0x30#8, 0x46#8, 0x61#8], Spec.isHexDigit c) ∧ ¬ Spec.isHexDigit 0x67#8 := by decide

/-- C35: on texts of even length `check` accepts iff `decode` (any implementation, enough room) succeeds. -/
theorem C35_check_agrees (i j : Option Isa) (xs : List Byte) (ds : List Cell) (he : xs.length % 2 = 0) (h : xs.length / 2 ≤ ds.length) :
    (∃ m', (check i (whole 0 xs.length)).run (Mem.ofBufs [xs.map some]) = .ok () m') ↔
    (∃ s m', (decode j (whole 0 xs.length) (whole 1 ds.length)).run (Mem.ofBufs [xs.map some, ds]) = .ok s m') := by
  rw [C35_check]
  have key : (∀ c ∈ xs, Spec.isHexDigit c) ↔ ∃ ys, Spec.IsHexOf xs ys := by
    rw [← hexOk_spec]
    constructor
    · intro hk
      exact ⟨_, (hexDec_spec xs (blocks 2 decG (xs.map parse_hex)) he).1 (by rw [hexDec, decB, if_pos (by exact hk)])⟩
    · rintro ⟨ys, hy⟩
      have := (hexDec_spec xs ys he).2 hy
      rw [hexDec, decB] at this
      split at this
      · rename_i hk; exact hk
      · cases this
  by_cases hx : ∃ ys, Spec.IsHexOf xs ys
  · obtain ⟨ys, hy⟩ := hx
    have hl := isHexOf_length hy
    rw [if_pos (key.2 ⟨ys, hy⟩)]
    exact ⟨fun _ => ⟨_, _, C31_decode_ok j xs ys ds hy (by omega)⟩, fun _ => ⟨_, rfl⟩⟩
  · rw [if_neg fun hc => hx (key.1 hc)]
    obtain ⟨ds', hr', -⟩ := C31_decode_err j xs ds (.inl hx)
    rw [hr']
    exact ⟨fun ⟨_, h⟩ => (by cases h), fun ⟨_, _, h⟩ => (by cases h)⟩

/-- C36: `check` and `encode` do exactly the same whichever implementation is chosen; `decode` and `decode_inplace`
succeed with the same result and final memory, or fail, together. -/
theorem C36_independent (P : Plat) (i j : Option Isa) (case : AsciiCase) (xs : List Byte) (ds : List Cell) (hd : ds.length ≤ P.usizeMax) :
    (check i (whole 0 xs.length)).run (Mem.ofBufs [xs.map some]) = (check j (whole 0 xs.length)).run (Mem.ofBufs [xs.map some]) ∧
    (encode P i (whole 0 xs.length) (whole 1 ds.length) case).run (Mem.ofBufs [xs.map some, ds]) =
      (encode P j (whole 0 xs.length) (whole 1 ds.length) case).run (Mem.ofBufs [xs.map some, ds]) ∧
    (∀ s m', (decode i (whole 0 xs.length) (whole 1 ds.length)).run (Mem.ofBufs [xs.map some, ds]) = .ok s m' ↔
      (decode j (whole 0 xs.length) (whole 1 ds.length)).run (Mem.ofBufs [xs.map some, ds]) = .ok s m') ∧
    (∀ s m', (decode_inplace i (whole 0 xs.length)).run (Mem.ofBufs [xs.map some]) = .ok s m' ↔
      (decode_inplace j (whole 0 xs.length)).run (Mem.ofBufs [xs.map some]) = .ok s m') := by
  refine ⟨by rw [C35_check, C35_check], ?_, ?_, ?_⟩
  · by_cases h : 2 * xs.length ≤ ds.length
    · rw [C29_encode P i case xs ds hd h, C29_encode P j case xs ds hd h]
    · rw [(C30_encode_contract P i case xs ds hd).1 (by omega), (C30_encode_contract P j case xs ds hd).1 (by omega)]
  · intro s m'
    by_cases h : (¬ ∃ ys, Spec.IsHexOf xs ys) ∨ ds.length < xs.length / 2
    · obtain ⟨_, h1, -⟩ := C31_decode_err i xs ds h
      obtain ⟨_, h2, -⟩ := C31_decode_err j xs ds h
      rw [h1, h2]
      exact ⟨fun h => (by cases h), fun h => (by cases h)⟩
    · rw [not_or, not_not] at h
      obtain ⟨⟨ys, hy⟩, h⟩ := h
      have hl := isHexOf_length hy
      rw [C31_decode_ok i xs ys ds hy (by omega), C31_decode_ok j xs ys ds hy (by omega)]
  · intro s m'
    by_cases h : ∃ ys, Spec.IsHexOf xs ys
    · obtain ⟨ys, hy⟩ := h
      rw [C34_inplace_ok i xs ys hy, C34_inplace_ok j xs ys hy]
    · obtain ⟨_, h1, -⟩ := C34_inplace_err i xs h
      obtain ⟨_, h2, -⟩ := C34_inplace_err j xs h
      rw [h1, h2]
      exact ⟨fun h => (by cases h), fun h => (by cases h)⟩

/-- C36: no implementation ever panics, reads or writes outside the given slices, reads uninitialised memory
or reaches unreachable code. -/
theorem C36_safe (P : Plat) (i : Option Isa) (case : AsciiCase) (xs : List Byte) (ds : List Cell) (hd : ds.length ≤ P.usizeMax) :
    ((check i (whole 0 xs.length)).run (Mem.ofBufs [xs.map some])).Safe ∧
    ((encode P i (whole 0 xs.length) (whole 1 ds.length) case).run (Mem.ofBufs [xs.map some, ds])).Safe ∧
    ((decode i (whole 0 xs.length) (whole 1 ds.length)).run (Mem.ofBufs [xs.map some, ds])).Safe ∧
    ((decode_inplace i (whole 0 xs.length)).run (Mem.ofBufs [xs.map some])).Safe := by
  refine ⟨?_, ?_, ?_, ?_⟩
  · rw [C35_check]; split <;> trivial
  · by_cases h : 2 * xs.length ≤ ds.length
    · rw [C29_encode P i case xs ds hd h]; trivial
    · rw [(C30_encode_contract P i case xs ds hd).1 (by omega)]; trivial
  · by_cases h : (¬ ∃ ys, Spec.IsHexOf xs ys) ∨ ds.length < xs.length / 2
    · obtain ⟨_, h1, -⟩ := C31_decode_err i xs ds h
      rw [h1]; trivial
    · rw [not_or, not_not] at h
      obtain ⟨⟨ys, hy⟩, h⟩ := h
      have hl := isHexOf_length hy
      rw [C31_decode_ok i xs ys ds hy (by omega)]; trivial
  · by_cases h : ∃ ys, Spec.IsHexOf xs ys
    · obtain ⟨ys, hy⟩ := h
      rw [C34_inplace_ok i xs ys hy]; trivial
    · obtain ⟨_, h1, -⟩ := C34_inplace_err i xs h
      rw [h1]; trivial

/-! ### C37: lengths, owned and appended results -/

/-- C37: `encoded_length` is `2 n` and does not overflow for `n <= usize::MAX / 2` (else it panics). -/
theorem C37_encoded_length (P : Plat) (n : Nat) : encoded_length P n = if n ≤ P.usizeMax / 2 then some (2 * n) else none := by
  unfold encoded_length
  split
  · rw [Plat.mulU, if_pos (by omega), Nat.mul_comm]
  · rfl

/-- C37: `decoded_length` is `Ok(k)` iff `n = 2 k`. -/
theorem C37_decoded_length (n k : Nat) : decoded_length n = .ok k ↔ n = 2 * k := by
  unfold decoded_length
  split
  · simp only [Except.ok.injEq]; omega
  · simp only [reduceCtorEq, false_iff]; omega

/-- C37: `encode_to_string` returns exactly the hexadecimal text, fully initialised, for every source a Rust
slice can have, unless the assertion `2 * len <= usize::MAX / 2` fails (then it panics). -/
theorem C37_encode_to_string (P : Plat) (i : Option Isa) (case : AsciiCase) (xs : List Byte) (h : xs.length ≤ P.isizeMax) :
    (encode_to_string P i (whole 0 xs.length) case).run (Mem.ofBufs [xs.map some]) =
      if 2 * xs.length ≤ P.usizeMax / 2 then
        .ok ⟨1, 2 * xs.length, 2 * xs.length⟩ (Mem.ofBufs [xs.map some, (Spec.hexEncode (case == .upper) xs).map some])
      else .panic := by
  have hu := isizeMax_le P
  unfold encode_to_string encode_to_boxed_str whole
  by_cases h0 : xs = []
  · subst h0
    rw [if_pos (by simp)]
    simp only [List.length_nil, List.map_nil]
    show Out.ok _ ((Mem.ofBufs [[]]).alloc 0) = _
    rw [ofBufs_alloc]; rfl
  · have hpos : 0 < xs.length := List.length_pos_iff.2 h0
    simp only
    rw [if_neg (by omega)]
    have e : P.mulU xs.length 2 = some (2 * xs.length) := by rw [Plat.mulU, if_pos (by omega), Nat.mul_comm]
    rw [e]
    split <;> rename_i hc
    · have := (boxed_run (P := P) (n := 2 * xs.length) (xs := xs) (spec := encS case)
        (body := fun q => encode_auto i ⟨0, 0⟩ xs.length q case) (by omega) (by omega)
        (fun m q hx hw hd => encode_auto_spec i case hx rfl hw (.inl hd))).1 (hexEnc case xs) rfl
      rw [run_bind]
      rw [show (do
        let m ← liftO (some (2 * xs.length))
        assert (decide (m ≤ P.usizeMax / 2))
        let buf ← alloc_uninit_bytes P m
        encode_auto i ⟨0, 0⟩ xs.length buf.ptr case
        assume_init buf : Prog Slice) = (do
        let buf ← alloc_uninit_bytes P (2 * xs.length)
        encode_auto i ⟨0, 0⟩ xs.length buf.ptr case
        assume_init buf : Prog Slice) by
          show (assert (decide (2 * xs.length ≤ P.usizeMax / 2)) >>= _) = _
          rw [decide_eq_true hc]; rfl]
      rw [this.2, hexEnc_spec]; rfl
    · show (Prog.bind (Prog.bind (assert (decide (2 * xs.length ≤ P.usizeMax / 2))) _) _).run _ = _
      rw [decide_eq_false hc]; rfl

/-- C37: `decode_to_vec` succeeds iff the text is hexadecimal text, and then returns exactly the decoded bytes, fully initialised. -/
theorem C37_decode_to_vec (P : Plat) (i : Option Isa) (xs : List Byte) (h : xs.length ≤ P.isizeMax) :
    let out := (decode_to_vec P i (whole 0 xs.length)).run (Mem.ofBufs [xs.map some])
    (∀ ys, Spec.IsHexOf xs ys → out = .ok ⟨1, ys.length, ys.length⟩ (Mem.ofBufs [xs.map some, ys.map some])) ∧
    ((¬ ∃ ys, Spec.IsHexOf xs ys) → ∃ m', out = .err m') := by
  intro out
  have hout : out = (decode_to_vec P i (whole 0 xs.length)).run (Mem.ofBufs [xs.map some]) := rfl
  unfold decode_to_vec decode_to_boxed_bytes whole at hout
  by_cases h0 : xs = []
  · subst h0
    rw [show (if (⟨⟨0, 0⟩, [].length⟩ : Slice).len = 0 then box_empty else _) = box_empty from if_pos rfl] at hout
    constructor
    · intro ys hy
      have := isHexOf_length hy
      obtain rfl : ys = [] := List.length_eq_zero_iff.1 (by rw [List.length_nil] at this; omega)
      rw [hout]
      show Out.ok _ ((Mem.ofBufs [[]]).alloc 0) = _
      rw [ofBufs_alloc]; rfl
    · intro hn; exact (hn ⟨[], rfl⟩).elim
  · have hpos : 0 < xs.length := List.length_pos_iff.2 h0
    simp only at hout
    rw [if_neg (by omega)] at hout
    by_cases he : xs.length % 2 = 0
    · have hb := boxed_run (P := P) (n := xs.length / 2) (xs := xs) (spec := hexDec)
        (body := fun q => decode_auto i ⟨0, 0⟩ xs.length q) (by omega) (by omega)
        (fun m q hx hw hd => by
          have := decode_auto_spec i (k := xs.length / 2) hx (by omega) hw (.inl hd)
          rwa [show 2 * (xs.length / 2) = xs.length by omega] at this)
      rw [run_bind, show (ensure (xs.length % 2 == 0) : Prog Unit) = pure () by rw [he]; rfl] at hout
      constructor
      · intro ys hy
        obtain ⟨hl, hr⟩ := hb.1 ys ((hexDec_spec xs ys he).2 hy)
        rw [hout]
        rw [prog_pure_bind, hr, ← hl]; rfl
      · intro hn
        have : hexDec xs = none := by
          cases hc : hexDec xs with
          | none => rfl
          | some ys => exact (hn ⟨ys, (hexDec_spec xs ys he).1 hc⟩).elim
        obtain ⟨ds, hr⟩ := hb.2 this
        rw [hout]
        rw [prog_pure_bind, hr]
        exact ⟨_, rfl⟩
    · constructor
      · intro ys hy
        have := isHexOf_length hy
        omega
      · intro _
        rw [hout, show (ensure (xs.length % 2 == 0) : Prog Unit) = .err by rw [show (xs.length % 2 == 0) = false by simp; omega]; rfl]
        exact ⟨_, rfl⟩

/-- C37: `decode_append` appends exactly the decoded bytes, or fails and leaves the vector's contents unchanged.
`hcap` excludes only the capacity-overflow panic of `Vec::reserve_exact`. -/
theorem C37_decode_append (P : Plat) (extra : Nat) (i : Option Isa) (xs prev : List Byte) (spare : List Cell)
    (hv : prev.length + spare.length ≤ P.isizeMax)
    (hcap : xs.length / 2 ≤ spare.length ∨ prev.length + xs.length / 2 + extra ≤ P.isizeMax) :
    let out := (decode_append P extra i (whole 0 xs.length) (vecOf prev spare)).run (Mem.ofBufs [xs.map some, prev.map some ++ spare])
    (∀ ys, Spec.IsHexOf xs ys → ∃ v' m', out = .ok (v', .ok ()) m' ∧ m'.view v'.slice = (prev ++ ys).map some) ∧
    ((¬ ∃ ys, Spec.IsHexOf xs ys) → ∃ v' m', out = .ok (v', .error ()) m' ∧ m'.view v'.slice = prev.map some) := by
  intro out
  have hout : out = (decode_append P extra i (whole 0 xs.length) (vecOf prev spare)).run (Mem.ofBufs [xs.map some, prev.map some ++ spare]) := rfl
  unfold decode_append decode_append_vec whole at hout
  simp only at hout
  by_cases h0 : xs = []
  · subst h0
    rw [if_pos List.length_nil] at hout
    constructor
    · intro ys hy
      have := isHexOf_length hy
      obtain rfl : ys = [] := List.length_eq_zero_iff.1 (by rw [List.length_nil] at this; omega)
      refine ⟨_, _, hout, ?_⟩
      rw [(vecOf_is [] prev spare).view]; simp
    · intro hn; exact (hn ⟨[], rfl⟩).elim
  · have hpos : 0 < xs.length := List.length_pos_iff.2 h0
    rw [if_neg (by omega)] at hout
    by_cases he : xs.length % 2 = 0
    · rw [if_pos he] at hout
      have hw := append_wp (P := P) (extra := extra) (n := xs.length / 2) (spec := hexDec) (body := fun q => decode_auto i ⟨0, 0⟩ xs.length q)
        (vecOf_is xs prev spare) (xs := xs) (hasBytes_ofBufs' rfl) (by simp [vecOf]) (by simp [Mem.ofBufs])
        (by simp only [vecOf]; omega) hv
        (fun m q hx hw hd => by
          have := decode_auto_spec i (k := xs.length / 2) hx (by omega) hw (.inl hd)
          rwa [show 2 * (xs.length / 2) = xs.length by omega] at this)
        (Q := fun r m' => (∃ ys, hexDec xs = some ys ∧ r.2 = .ok () ∧ m'.view r.1.slice = (prev ++ ys).map some) ∨
          (hexDec xs = none ∧ r.2 = .error () ∧ m'.view r.1.slice = prev.map some)) (E := fun _ => False)
        (fun v' m' ys hy hv' _ => .inl ⟨ys, hy, rfl, hv'.view⟩) (fun v' m' hn hv' _ => .inr ⟨hn, rfl, hv'.view⟩)
      rcases wp_out hw with ⟨r, m', hr, hq⟩ | ⟨_, _, h⟩
      · replace hout := hout.trans hr
        obtain ⟨v', e⟩ := r
        constructor
        · intro ys hy
          rcases hq with ⟨zs, hz, he2, hview⟩ | ⟨hn, -⟩
          · rw [(hexDec_spec xs ys he).2 hy] at hz
            cases hz
            simp only at he2
            subst he2
            exact ⟨_, _, hout, hview⟩
          · rw [(hexDec_spec xs ys he).2 hy] at hn; cases hn
        · intro hn
          rcases hq with ⟨zs, hz, -⟩ | ⟨-, he2, hview⟩
          · exact (hn ⟨zs, (hexDec_spec xs zs he).1 hz⟩).elim
          · simp only at he2
            subst he2
            exact ⟨_, _, hout, hview⟩
      · exact h.elim
    · rw [if_neg he] at hout
      constructor
      · intro ys hy
        have := isHexOf_length hy
        omega
      · intro _
        exact ⟨_, _, hout, (vecOf_is xs prev spare).view⟩

/-- C37: `encode_append` appends exactly the hexadecimal text. -/
theorem C37_encode_append (P : Plat) (extra : Nat) (i : Option Isa) (case : AsciiCase) (xs prev : List Byte) (spare : List Cell)
    (hx : 2 * xs.length ≤ P.usizeMax / 2) (hv : prev.length + spare.length ≤ P.isizeMax)
    (hcap : 2 * xs.length ≤ spare.length ∨ prev.length + 2 * xs.length + extra ≤ P.isizeMax) :
    ∃ v' m', (encode_append P extra i (whole 0 xs.length) (vecOf prev spare) case).run (Mem.ofBufs [xs.map some, prev.map some ++ spare]) = .ok v' m' ∧
      m'.view v'.slice = (prev ++ Spec.hexEncode (case == .upper) xs).map some := by
  have hu := isizeMax_le P
  unfold encode_append encode_append_vec whole
  by_cases h0 : xs = []
  · subst h0
    refine ⟨_, _, rfl, ?_⟩
    rw [(vecOf_is [] prev spare).view]; simp [Spec.hexEncode]
  · have hpos : 0 < xs.length := List.length_pos_iff.2 h0
    simp only
    rw [if_neg (by omega)]
    have e : P.mulU xs.length 2 = some (2 * xs.length) := by rw [Plat.mulU, if_pos (by omega), Nat.mul_comm]
    rw [e]
    have hw := append_total_wp (P := P) (extra := extra) (n := 2 * xs.length) (spec := encS case) (ys := hexEnc case xs)
      (body := fun q => encode_auto i ⟨0, 0⟩ xs.length q case)
      (vecOf_is xs prev spare) (xs := xs) (hasBytes_ofBufs' rfl) (by simp [vecOf]) (by simp [Mem.ofBufs])
      (by simp only [vecOf]; omega) hv rfl
      (fun m q hx hw hd => encode_auto_spec i case hx rfl hw (.inl hd))
      (Q := fun v' m' => m'.view v'.slice = (prev ++ hexEnc case xs).map some) (E := fun _ => False)
      (fun v' m' hv' _ => hv'.view)
    rcases wp_out hw with ⟨r, m', hr, hq⟩ | ⟨_, _, h⟩
    · rw [hexEnc_spec] at hq
      refine ⟨r, m', ?_, hq⟩
      show (assert (decide (2 * xs.length ≤ P.usizeMax / 2)) >>= _ : Prog RVec).run _ = _
      rw [decide_eq_true hx]
      exact hr
    · exact h.elim

example : ([0x30#8, 0x31#8] : List Byte).length / 2 ≤ ([none, none] : List Cell).length ∧ Spec.IsHexOf [0x30#8, 0x31#8] [1#8] := by
  unfold Spec.IsHexOf; decide

/-- C37: hexadecimal text is ASCII, so exposing it as `str` is valid UTF-8. -/
theorem C37_ascii (u : Bool) (xs : List Byte) : ∀ c ∈ Spec.hexEncode u xs, c.toNat < 128 := by
  have key : ∀ (u : Bool) (n : Fin 16), (Spec.hexDigit u n.val).toNat < 128 := by decide +kernel
  intro c hc
  unfold Spec.hexEncode at hc
  rw [List.mem_flatMap] at hc
  obtain ⟨b, -, hb⟩ := hc
  have hlt := b.isLt
  simp only [List.mem_cons, List.not_mem_nil, or_false] at hb
  rcases hb with rfl | rfl
  · exact key u ⟨b.toNat / 16, by omega⟩
  · exact key u ⟨b.toNat % 16, by omega⟩

/-- C37: what `encode_as_str` returns is the hexadecimal text, which is UTF-8, so the unchecked conversion is sound. -/
theorem C37_as_str (P : Plat) (i : Option Isa) (case : AsciiCase) (xs : List Byte) (ds : List Cell) (hd : ds.length ≤ P.usizeMax)
    (h : 2 * xs.length ≤ ds.length) :
    ∃ s m' text, (encode_as_str P i (whole 0 xs.length) (whole 1 ds.length) case).run (Mem.ofBufs [xs.map some, ds]) = .ok s m' ∧
      m'.view s = text.map some ∧ text = Spec.hexEncode (case == .upper) xs ∧ Spec.ValidUtf8 text := by
  refine ⟨_, _, _, C29_encode P i case xs ds hd h, ?_, rfl, .ascii (C37_ascii (case == .upper) xs)⟩
  have := view_copy xs (Spec.hexEncode (case == .upper) xs) ds (2 * xs.length)
  rwa [hexEncode_length] at this

example : Spec.ValidUtf8 (Spec.hexEncode true [0xde#8, 0xad#8]) := .ascii (by decide)

end Hex
end Simd
