import Verif.Lemmas.FootprintApart
import Verif.Lemmas.Safe
import Verif.Lemmas.RenHex
import Verif.Lemmas.RenBase
import Verif.Lemmas.RenUnicode
/-
C63: which bytes the functions on borrowed slices access. Source and destination are anywhere in any memory, also in one allocation,
and have no byte in common; all bytes of the memory may be initialised, so nothing here is due to an access being undefined behaviour. A store counts even if it
stores the value that was there before.
-/
namespace Simd

/-! ### The trace contains every access

A byte that a run changed was stored to, and bytes that were not loaded have no influence on the run. -/

/-- C63: in an allocation that existed before the run, a byte that differs after the run is one of those stored. -/
theorem C63_trace_stores {α : Type} (x : Prog α) {m m' : Mem} (h : (∃ a, x.run m = .ok a m') ∨ x.run m = .err m') {b o : Nat} (hb : b < m.nbuf)
    (hc : m'.cell b o ≠ m.cell b o) : ∃ r k, Access.store r k ∈ x.trace m ∧ Spec.In r k b o := by
  induction x generalizing m with
  | pure a => rcases h with ⟨_, h⟩ | h <;> cases h; exact absurd rfl hc
  | err => rcases h with ⟨_, h⟩ | h <;> cases h; exact absurd rfl hc
  | panic => rcases h with ⟨_, h⟩ | h <;> cases h
  | ub => rcases h with ⟨_, h⟩ | h <;> cases h
  | load p n k ih =>
    simp only [Prog.run] at h
    cases hr : m.read p n with
    | none => rw [hr] at h; rcases h with ⟨_, h⟩ | h <;> cases h
    | some bs =>
      rw [hr] at h
      obtain ⟨r, k', h1, h2⟩ := ih bs h hb hc
      simp only [Prog.trace, hr]
      exact ⟨r, k', .tail _ h1, h2⟩
  | store p bs k ih =>
    simp only [Prog.run] at h
    split at h
    · rename_i hs
      simp only [Prog.trace, if_pos hs]
      by_cases hi : Spec.In p bs.length b o
      · exact ⟨p, bs.length, .head _, hi⟩
      · obtain ⟨r, k', h1, h2⟩ := ih h hb (by rwa [Mem.write_cell_out (by unfold Spec.In at hi; omega)])
        exact ⟨r, k', .tail _ h1, h2⟩
    · rcases h with ⟨_, h⟩ | h <;> cases h
  | chk p k ih =>
    simp only [Prog.run] at h
    split at h
    · rename_i hs
      simp only [Prog.trace, if_pos hs]
      exact ih h hb hc
    · rcases h with ⟨_, h⟩ | h <;> cases h
  | alloc n k ih =>
    refine ih m.nbuf (m := m.alloc n) h (Nat.lt_succ_of_lt hb) ?_
    rwa [show (m.alloc n).cell b o = m.cell b o from if_neg (by omega)]

/-- C63: on a second memory with the same allocations and the same values in all bytes loaded, the run makes the same accesses and ends in
the same way with the same result. -/
theorem C63_trace_loads {α : Type} (x : Prog α) {m m₂ : Mem} (hn : m₂.nbuf = m.nbuf) (hz : m₂.size = m.size)
    (hc : ∀ r k, Access.load r k ∈ x.trace m → ∀ i, i < k → m₂.cell r.buf (r.off + i) = m.cell r.buf (r.off + i)) :
    x.trace m₂ = x.trace m ∧ (∀ a, (∃ m', x.run m = .ok a m') ↔ ∃ m', x.run m₂ = .ok a m') ∧ ((∃ m', x.run m = .err m') ↔ ∃ m', x.run m₂ = .err m') ∧
      (x.run m = .panic ↔ x.run m₂ = .panic) ∧ (x.run m = .ub ↔ x.run m₂ = .ub) := by
  induction x generalizing m m₂ with
  | pure a => simp [Prog.trace, Prog.run]
  | err => simp [Prog.trace, Prog.run]
  | panic => simp [Prog.trace, Prog.run]
  | ub => simp [Prog.trace, Prog.run]
  | load p n k ih =>
    have hr : m₂.read p n = m.read p n := by
      unfold Mem.read
      rw [hz, readFrom_congr n p.off (hc p n (by simp [Prog.trace]))]
    simp only [Prog.trace, Prog.run, hr] at hc ⊢
    cases h : m.read p n with
    | none => simp
    | some bs =>
      rw [h] at hc
      have := ih bs hn hz fun r k' hm => hc r k' (.tail _ hm)
      exact ⟨congrArg _ this.1, this.2⟩
  | store p bs k ih =>
    simp only [Prog.trace, Prog.run, hz] at hc ⊢
    split
    · rename_i hs
      rw [if_pos hs] at hc
      have := ih (m := m.write p bs) (m₂ := m₂.write p bs) hn hz fun r k' hm i hi => by
        have := hc r k' (.tail _ hm) i hi
        simp only [Mem.write, this]
      exact ⟨by rw [this.1], this.2⟩
    · simp
  | chk p k ih =>
    simp only [Prog.trace, Prog.run, hz] at hc ⊢
    split
    · rename_i hs
      rw [if_pos hs] at hc
      exact ih hn hz hc
    · simp
  | alloc n k ih =>
    simp only [Prog.trace, Prog.run, hn] at hc ⊢
    refine ih m.nbuf (m := m.alloc n) (m₂ := m₂.alloc n) (by simp [Mem.alloc, hn]) (by simp [Mem.alloc, hn, hz]) fun r k' hm i hi => ?_
    have := hc r k' hm i hi
    simp only [Mem.alloc, hn, this]

namespace Base64

/-- C63, `encode` of base64-simd: loads are inside the source, stores inside the part of the destination that is returned; if the
destination is too short, nothing is stored. -/
theorem C63_encode (P : Plat) {i : Option Isa} (hi : i ≠ some .sse2) {config url pad} (hv : IsVariant config url pad)
    (m : Mem) (p q : Ptr) (xs : List Byte) (d : Nat) (hr : Spec.Reads m p xs) (hw : Spec.Writable m q d) (ho : Spec.NoOverlap p xs.length q d)
    (hx : xs.length ≤ P.isizeMax) :
    Spec.Confined ((encode P i config ⟨p, xs.length⟩ ⟨q, d⟩).trace m) p xs.length q
      (if (Spec.base64 url pad xs).length ≤ d then (Spec.base64 url pad xs).length else 0) :=
  confined_any (fun p q => encode P i config ⟨p, xs.length⟩ ⟨q, d⟩) (fun _ _ _ => ren_encode ..) (fun _ _ => uses_encode trivial trivial ..) (safe_encode P hi hv hx)
    (fun m p q h hr hw => apart_encode P hi hv m p q h xs d hr hw hx) (by split <;> omega) hr hw ho

/-- C63, `decode` of base64-simd on the encoding of `ys`: stores are inside the first `ys.length` bytes. -/
theorem C63_decode {i : Option Isa} (hi : i ≠ some .sse2) {config url pad} (hv : IsVariant config url pad)
    (m : Mem) (p q : Ptr) (ys : List Byte) (d : Nat) (hr : Spec.Reads m p (Spec.base64 url pad ys)) (hw : Spec.Writable m q d) (ho : Spec.NoOverlap p (Spec.base64 url pad ys).length q d) :
    Spec.Confined ((decode i config ⟨p, (Spec.base64 url pad ys).length⟩ ⟨q, d⟩).trace m) p (Spec.base64 url pad ys).length q
      (if ys.length ≤ d then ys.length else 0) :=
  confined_any (fun p q => decode i config ⟨p, (Spec.base64 url pad ys).length⟩ ⟨q, d⟩) (fun _ _ _ => ren_decode ..) (fun _ _ => uses_decode trivial trivial ..) (safe_decode hi hv)
    (fun m p q h hr hw => apart_decode hi hv m p q h ys d hr hw) (by split <;> omega) hr hw ho

/-- C63, `decode` of base64-simd on any other text: stores are inside the destination. -/
theorem C63_decode_err {i : Option Isa} (hi : i ≠ some .sse2) {config url pad} (hv : IsVariant config url pad)
    (m : Mem) (p q : Ptr) (xs : List Byte) (d : Nat) (hr : Spec.Reads m p xs) (hw : Spec.Writable m q d) (ho : Spec.NoOverlap p xs.length q d)
    (h : ¬ ∃ ys, Spec.base64 url pad ys = xs) :
    Spec.Confined ((decode i config ⟨p, xs.length⟩ ⟨q, d⟩).trace m) p xs.length q d :=
  confined_any (fun p q => decode i config ⟨p, xs.length⟩ ⟨q, d⟩) (fun _ _ _ => ren_decode ..) (fun _ _ => uses_decode trivial trivial ..) (safe_decode hi hv)
    (fun m p q h' hr hw => apart_decode_err hi hv m p q h' xs d hr hw h) (Nat.le_refl _) hr hw ho

/-- C63, `decode_inplace` of base64-simd: all accesses are inside the slice. -/
theorem C63_inplace {i : Option Isa} (hi : i ≠ some .sse2) {config url pad} (hv : IsVariant config url pad)
    (m : Mem) (p : Ptr) (xs : List Byte) (hr : Spec.Reads m p xs) :
    Spec.Confined ((decode_inplace i config ⟨p, xs.length⟩).trace m) p xs.length p xs.length := by
  have h := C59_inplace hi hv _ p xs (Mem.keep_reads hr)
  have hu := uses_decode_inplace (L := fun _ => True) (W := fun _ => True) (d := ⟨p, xs.length⟩) trivial trivial i config
  by_cases hy : ∃ ys, Spec.base64 url pad ys = xs
  · obtain ⟨ys, rfl⟩ := hy
    refine inpl_wrote hu (h.1 ys rfl) ?_
    rw [← hv.text, text_length]
    unfold encLen
    split <;> [skip; split] <;> omega
  · exact inpl_only hu (h.2 hy) (Nat.le_refl _)

/-- C63, `check` of base64-simd: nothing is stored, loads are inside the slice. -/
theorem C63_check {i : Option Isa} (hi : i ≠ some .sse2) {config url pad} (hv : IsVariant config url pad)
    (m : Mem) (p : Ptr) (xs : List Byte) (hr : Spec.Reads m p xs) :
    Spec.ReadOnly ((check i config ⟨p, xs.length⟩).trace m) p xs.length := by
  have h := C59_check hi hv _ p xs (Mem.keep_reads hr)
  have hu := uses_check (L := fun _ => True) (W := fun _ => False) (d := ⟨p, xs.length⟩) trivial i config
  by_cases hy : ∃ ys, Spec.base64 url pad ys = xs
  · exact readOnly hu (.inl ⟨(), h.1 hy⟩) rfl
  · exact readOnly hu (.inr (h.2 hy)) rfl

/-- C63, `forgiving_decode`: the destination is also read, but only where the same call has written. -/
theorem C63_forgiving (fi : Option Isa) {di : Option Isa} (hi : di ≠ some .sse2) (m : Mem) (p q : Ptr) (xs : List Byte) (d : Nat)
    (hr : Spec.Reads m p xs) (hw : Spec.Writable m q d) (ho : Spec.NoOverlap p xs.length q d) (hl : xs.length ≤ d) :
    Spec.Staged ((forgiving_decode fi di ⟨p, xs.length⟩ ⟨q, d⟩).trace m) p xs.length q xs.length :=
  staged_any (fun p q => forgiving_decode fi di ⟨p, xs.length⟩ ⟨q, d⟩) (fun _ _ _ => ren_forgiving ..) (fun _ _ => uses_forgiving trivial trivial trivial ..) (safe_forgiving fi hi hl)
    (fun m p q h hr hw => apart_forgiving fi hi m p q h xs d hr hw hl) hl hr hw ho

/-- C63, `forgiving_decode_inplace`. -/
theorem C63_forgiving_inplace (fi : Option Isa) {di : Option Isa} (hi : di ≠ some .sse2) (m : Mem) (p : Ptr) (xs : List Byte) (hr : Spec.Reads m p xs) :
    Spec.Confined ((forgiving_decode_inplace fi di ⟨p, xs.length⟩).trace m) p xs.length p xs.length := by
  have h := C59_forgiving_inplace fi hi _ p xs (Mem.keep_reads hr)
  have hu := uses_forgiving_inplace (L := fun _ => True) (W := fun _ => True) (d := ⟨p, xs.length⟩) trivial trivial fi di
  cases hy : Spec.forgivingDecode xs with
  | some ys =>
    obtain ⟨m', h1, -, h2⟩ := h.1 ys hy
    exact confined_inplace hu (.inl ⟨_, h1⟩) h2.2.2.2
  | none =>
    obtain ⟨m', h1, h2⟩ := h.2 hy
    exact confined_inplace hu (.inr h1) h2.2.2.2

end Base64

namespace Base32

/-- C63, `encode` of base32-simd. -/
theorem C63_encode (P : Plat) (w : Bool) {i : Option Isa} (hi : Impl i) {config hex pad} (hv : IsVariant config hex pad)
    (m : Mem) (p q : Ptr) (xs : List Byte) (d : Nat) (hr : Spec.Reads m p xs) (hw : Spec.Writable m q d) (ho : Spec.NoOverlap p xs.length q d)
    (hx : xs.length ≤ P.isizeMax) :
    Spec.Confined ((encode P w i config ⟨p, xs.length⟩ ⟨q, d⟩).trace m) p xs.length q
      (if (Spec.base32 hex pad xs).length ≤ d then (Spec.base32 hex pad xs).length else 0) :=
  confined_any (fun p q => encode P w i config ⟨p, xs.length⟩ ⟨q, d⟩) (fun _ _ _ => ren_encode ..) (fun _ _ => uses_encode trivial trivial ..) (safe_encode P w hi hv hx)
    (fun m p q h hr hw => apart_encode P w hi hv m p q h xs d hr hw hx) (by split <;> omega) hr hw ho

/-- C63, `decode` of base32-simd on the encoding of `ys`. -/
theorem C63_decode (w : Bool) {i : Option Isa} (hi : Impl i) {config hex pad} (hv : IsVariant config hex pad)
    (m : Mem) (p q : Ptr) (ys : List Byte) (d : Nat) (hr : Spec.Reads m p (Spec.base32 hex pad ys)) (hw : Spec.Writable m q d) (ho : Spec.NoOverlap p (Spec.base32 hex pad ys).length q d) :
    Spec.Confined ((decode w i config ⟨p, (Spec.base32 hex pad ys).length⟩ ⟨q, d⟩).trace m) p (Spec.base32 hex pad ys).length q
      (if ys.length ≤ d then ys.length else 0) :=
  confined_any (fun p q => decode w i config ⟨p, (Spec.base32 hex pad ys).length⟩ ⟨q, d⟩) (fun _ _ _ => ren_decode ..) (fun _ _ => uses_decode trivial trivial ..) (safe_decode w hi hv)
    (fun m p q h hr hw => apart_decode w hi hv m p q h ys d hr hw) (by split <;> omega) hr hw ho

/-- C63, `decode` of base32-simd on any other text. -/
theorem C63_decode_err (w : Bool) {i : Option Isa} (hi : Impl i) {config hex pad} (hv : IsVariant config hex pad)
    (m : Mem) (p q : Ptr) (xs : List Byte) (d : Nat) (hr : Spec.Reads m p xs) (hw : Spec.Writable m q d) (ho : Spec.NoOverlap p xs.length q d)
    (h : ¬ ∃ ys, Spec.base32 hex pad ys = xs) :
    Spec.Confined ((decode w i config ⟨p, xs.length⟩ ⟨q, d⟩).trace m) p xs.length q d :=
  confined_any (fun p q => decode w i config ⟨p, xs.length⟩ ⟨q, d⟩) (fun _ _ _ => ren_decode ..) (fun _ _ => uses_decode trivial trivial ..) (safe_decode w hi hv)
    (fun m p q h' hr hw => apart_decode_err w hi hv m p q h' xs d hr hw h) (Nat.le_refl _) hr hw ho

/-- C63, `decode_inplace` of base32-simd. -/
theorem C63_inplace (w : Bool) {i : Option Isa} (hi : Impl i) {config hex pad} (hv : IsVariant config hex pad)
    (m : Mem) (p : Ptr) (xs : List Byte) (hr : Spec.Reads m p xs) :
    Spec.Confined ((decode_inplace w i config ⟨p, xs.length⟩).trace m) p xs.length p xs.length := by
  have h := C59_inplace w hi hv _ p xs (Mem.keep_reads hr)
  have hu := uses_decode_inplace (L := fun _ => True) (W := fun _ => True) (d := ⟨p, xs.length⟩) trivial trivial w i config
  by_cases hy : ∃ ys, Spec.base32 hex pad ys = xs
  · obtain ⟨ys, rfl⟩ := hy
    refine inpl_wrote hu (h.1 ys rfl) ?_
    rw [← hv.text, text_length]
    unfold encLen
    have ht : ys.length % 5 ≤ tailLen (ys.length % 5) := by
      have : ys.length % 5 < 5 := Nat.mod_lt _ (by decide)
      generalize ys.length % 5 = k at this ⊢
      have : k = 0 ∨ k = 1 ∨ k = 2 ∨ k = 3 ∨ k = 4 := by omega
      rcases this with rfl | rfl | rfl | rfl | rfl <;> decide
    split <;> [skip; split] <;> omega
  · exact inpl_only hu (h.2 hy) (Nat.le_refl _)

/-- C63, `check` of base32-simd. -/
theorem C63_check {i : Option Isa} (hi : i ≠ some .sse2) {config hex pad} (hv : IsVariant config hex pad)
    (m : Mem) (p : Ptr) (xs : List Byte) (hr : Spec.Reads m p xs) :
    Spec.ReadOnly ((check i config ⟨p, xs.length⟩).trace m) p xs.length := by
  have h := C59_check hi hv _ p xs (Mem.keep_reads hr)
  have hu := uses_check (L := fun _ => True) (W := fun _ => False) (d := ⟨p, xs.length⟩) trivial i config
  by_cases hy : ∃ ys, Spec.base32 hex pad ys = xs
  · exact readOnly hu (.inl ⟨(), h.1 hy⟩) rfl
  · exact readOnly hu (.inr (h.2 hy)) rfl

end Base32

namespace Hex

/-- C63, `encode` of hex-simd. -/
theorem C63_encode (P : Plat) (i : Option Isa) (case : AsciiCase) (m : Mem) (p q : Ptr) (xs : List Byte) (d : Nat)
    (hr : Spec.Reads m p xs) (hw : Spec.Writable m q d) (ho : Spec.NoOverlap p xs.length q d) (hsz : d ≤ P.usizeMax) :
    Spec.Confined ((encode P i ⟨p, xs.length⟩ ⟨q, d⟩ case).trace m) p xs.length q (if 2 * xs.length ≤ d then 2 * xs.length else 0) :=
  confined_any (fun p q => encode P i ⟨p, xs.length⟩ ⟨q, d⟩ case) (fun _ _ _ => ren_encode ..) (fun _ _ => uses_encode trivial trivial ..) (safe_encode P i case hsz)
    (fun m p q h hr hw => apart_encode P i case m p q h xs d hr hw hsz) (by split <;> omega) hr hw ho

/-- C63, `decode` of hex-simd: stores are inside the first `xs.length / 2` bytes, also when the text is rejected. -/
theorem C63_decode (i : Option Isa) (m : Mem) (p q : Ptr) (xs : List Byte) (d : Nat) (hr : Spec.Reads m p xs)
    (hw : Spec.Writable m q d) (ho : Spec.NoOverlap p xs.length q d) : Spec.Confined ((decode i ⟨p, xs.length⟩ ⟨q, d⟩).trace m) p xs.length q (if xs.length / 2 ≤ d then xs.length / 2 else 0) :=
  confined_any (fun p q => decode i ⟨p, xs.length⟩ ⟨q, d⟩) (fun _ _ _ => ren_decode ..) (fun _ _ => uses_decode trivial trivial ..) (safe_decode i)
    (fun m p q h hr hw => apart_decode i m p q h xs d hr hw) (by split <;> omega) hr hw ho

/-- C63, `decode_inplace` of hex-simd. -/
theorem C63_inplace (i : Option Isa) (m : Mem) (p : Ptr) (xs : List Byte) (hr : Spec.Reads m p xs) :
    Spec.Confined ((decode_inplace i ⟨p, xs.length⟩).trace m) p xs.length p xs.length := by
  have h := C59_inplace i _ p xs (Mem.keep_reads hr)
  have hu := uses_decode_inplace (L := fun _ => True) (W := fun _ => True) (d := ⟨p, xs.length⟩) trivial trivial i
  by_cases hy : ∃ ys, Spec.IsHexOf xs ys
  · obtain ⟨ys, hy⟩ := hy
    have hl := isHexOf_length hy
    exact inpl_wrote hu (h.1 ys hy) (by omega)
  · exact inpl_only hu (h.2 hy) (by omega)

/-- C63, `check` and `check_raw` of hex-simd. -/
theorem C63_check (i : Option Isa) (m : Mem) (p : Ptr) (xs : List Byte) (hr : Spec.Reads m p xs) :
    Spec.ReadOnly ((check i ⟨p, xs.length⟩).trace m) p xs.length ∧ Spec.ReadOnly ((check_raw i p xs.length).trace m) p xs.length := by
  have h := C58_check_raw i _ p xs (Mem.keep_reads hr)
  have hu := uses_check_auto (L := fun _ => True) (W := fun _ => False) (p := p) trivial i xs.length
  suffices hc : Spec.ReadOnly ((check_raw i p xs.length).trace m) p xs.length from ⟨hc, hc⟩
  split at h
  · exact readOnly hu (.inl ⟨(), h⟩) rfl
  · exact readOnly hu (.inr h) rfl

/-- C63, `encode_raw` of hex-simd. -/
theorem C63_encode_raw (P : Plat) (i : Option Isa) (case : AsciiCase) (m : Mem) (p q : Ptr) (xs : List Byte)
    (hr : Spec.Reads m p xs) (hw : Spec.Writable m q (2 * xs.length)) (ho : Spec.NoOverlap p xs.length q (2 * xs.length)) (hsz : 2 * xs.length ≤ P.usizeMax) :
    Spec.Confined ((encode_raw P i p xs.length q case).trace m) p xs.length q (2 * xs.length) :=
  confined_any (fun p q => encode_raw P i p xs.length q case) (fun _ _ _ => ren_encode_raw ..) (fun _ _ => uses_encode_raw trivial trivial ..) (safe_encode_raw P i case hsz)
    (fun m p q h hr hw => apart_encode_raw P i case m p q h xs hr hw hsz) (Nat.le_refl _) hr hw ho

/-- C63, `decode_raw` of hex-simd. -/
theorem C63_decode_raw (i : Option Isa) (m : Mem) (p q : Ptr) (xs : List Byte)
    (hr : Spec.Reads m p xs) (hw : Spec.Writable m q (xs.length / 2)) (ho : Spec.NoOverlap p xs.length q (xs.length / 2)) :
    Spec.Confined ((decode_raw i p xs.length q).trace m) p xs.length q (xs.length / 2) :=
  confined_any (fun p q => decode_raw i p xs.length q) (fun _ _ _ => ren_decode_raw ..) (fun _ _ => uses_decode_raw trivial trivial ..) (safe_decode_raw i)
    (fun m p q h hr hw => apart_decode_raw i m p q h xs hr hw) (Nat.le_refl _) hr hw ho

end Hex

namespace Uuid

/-- C63, `parse` of uuid-simd: loads are inside the text, stores inside the 16 bytes of the destination. -/
theorem C63_parse (si : Option Isa) {hi : Option Isa} (hh : HypImpl hi) (m : Mem) (p q : Ptr) (xs : List Byte)
    (hr : Spec.Reads m p xs) (hw : Spec.Writable m q 16) (ho : Spec.NoOverlap p xs.length q 16) : Spec.Confined ((parse si hi ⟨p, xs.length⟩ q).trace m) p xs.length q 16 :=
  confined_any (fun p q => parse si hi ⟨p, xs.length⟩ q) (fun _ _ _ => ren_parse ..) (fun _ _ => uses_parse trivial trivial ..) (safe_parse si hh)
    (fun m p q h hr hw => apart_parse si hh m p q h xs hr hw) (Nat.le_refl _) hr hw ho

/-- C63, `parse_simple`. -/
theorem C63_parse_simple (i : Option Isa) (m : Mem) (p q : Ptr) (xs : List Byte)
    (hr : Spec.Reads m p xs) (hw : Spec.Writable m q 16) (ho : Spec.NoOverlap p xs.length q 16) : Spec.Confined ((parse_simple i ⟨p, xs.length⟩ q).trace m) p xs.length q 16 :=
  confined_any (fun p q => parse_simple i ⟨p, xs.length⟩ q) (fun _ _ _ => ren_parse_simple ..) (fun _ _ => uses_parse_simple trivial trivial ..) (safe_parse_simple i)
    (fun m p q h hr hw => apart_parse_simple i m p q h xs hr hw) (Nat.le_refl _) hr hw ho

/-- C63, `parse_hyphenated`. -/
theorem C63_parse_hyphenated {i : Option Isa} (hi : HypImpl i) (m : Mem) (p q : Ptr) (xs : List Byte)
    (hr : Spec.Reads m p xs) (hw : Spec.Writable m q 16) (ho : Spec.NoOverlap p xs.length q 16) : Spec.Confined ((parse_hyphenated i ⟨p, xs.length⟩ q).trace m) p xs.length q 16 :=
  confined_any (fun p q => parse_hyphenated i ⟨p, xs.length⟩ q) (fun _ _ _ => ren_parse_hyphenated ..) (fun _ _ => uses_parse_hyphenated trivial trivial ..) (safe_parse_hyphenated hi)
    (fun m p q h hr hw => apart_parse_hyphenated hi m p q h xs hr hw) (Nat.le_refl _) hr hw ho

/-- C63, `format_simple`: loads are inside the 16 bytes of the UUID, stores inside the 32 bytes of the destination. -/
theorem C63_format_simple (i : Option Isa) (case : AsciiCase) (m : Mem) (p q : Ptr) (u : List Byte) (hu : u.length = 16)
    (hr : Spec.Reads m p u) (hw : Spec.Writable m q 32) (ho : Spec.NoOverlap p 16 q 32) : Spec.Confined ((format_simple i p q case).trace m) p 16 q 32 :=
  hu ▸ confined_any (fun p q => format_simple i p q case) (fun _ _ _ => ren_format_simple ..) (fun _ _ => uses_format_simple trivial trivial ..)
    (fun m p q hr hw ho => ok_ne (C60_format_simple i case m p q u hu hr hw (hu ▸ ho)))
    (fun m p q h hr hw => hu.symm ▸ apart_format_simple i case m p q h u hu hr hw) (Nat.le_refl _) hr hw (hu.symm ▸ ho)

/-- C63, `format_hyphenated`. -/
theorem C63_format_hyphenated {i : Option Isa} (hi : HypImpl i) (case : AsciiCase) (m : Mem) (p q : Ptr) (u : List Byte)
    (hu : u.length = 16) (hr : Spec.Reads m p u) (hw : Spec.Writable m q 36) (ho : Spec.NoOverlap p 16 q 36) : Spec.Confined ((format_hyphenated i p q case).trace m) p 16 q 36 :=
  hu ▸ confined_any (fun p q => format_hyphenated i p q case) (fun _ _ _ => ren_format_hyphenated ..) (fun _ _ => uses_format_hyphenated trivial trivial ..)
    (fun m p q hr hw ho => ok_ne (C60_format_hyphenated hi case m p q u hu hr hw (hu ▸ ho)))
    (fun m p q h hr hw => hu.symm ▸ apart_format_hyphenated hi case m p q h u hu hr hw) (Nat.le_refl _) hr hw (hu.symm ▸ ho)

end Uuid

namespace Unicode

/-- C63, `is_ascii` and `from_ascii`: nothing is stored, loads are inside the slice. -/
theorem C63_is_ascii (x64 : Bool) (i : Option Isa) (m : Mem) (p : Ptr) (xs : List Byte) (hr : Spec.Reads m p xs) :
    Spec.ReadOnly ((is_ascii x64 i ⟨p, xs.length⟩).trace m) p xs.length ∧ Spec.ReadOnly ((from_ascii x64 i ⟨p, xs.length⟩).trace m) p xs.length :=
  ⟨readOnly (uses_is_ascii (L := fun _ => True) (W := fun _ => False) (d := ⟨p, xs.length⟩) trivial x64 i)
      (.inl ⟨_, C60_is_ascii x64 i _ p xs (Mem.keep_reads hr)⟩) rfl,
   readOnly (uses_from_ascii (L := fun _ => True) (W := fun _ => False) (d := ⟨p, xs.length⟩) trivial x64 i)
      (.inl ⟨_, C60_from_ascii x64 i _ p xs (Mem.keep_reads hr)⟩) rfl⟩

/-- C63, `is_utf32le`. -/
theorem C63_is_utf32le {i : Option Isa} (hi : i ≠ some .sse2 ∧ i ≠ some .ssse3) (m : Mem) (p : Ptr) (ws : List (BitVec 32))
    (hr : Spec.Reads m p (Spec.wordBytes 4 ws)) : Spec.ReadOnly ((is_utf32le i ⟨p, ws.length⟩).trace m) p (4 * ws.length) := by
  have hr' := Mem.keep_reads hr
  rw [wordBytes_length 4 ws] at hr'
  exact readOnly (uses_is_utf32le (L := fun _ => True) (W := fun _ => False) (d := ⟨p, ws.length⟩) trivial i)
    (.inl ⟨_, C60_is_utf32le hi _ p ws hr'⟩) rfl

/-- C63, `utf16_swap_endianness`: stores are inside the first `src.len()` elements of the destination. -/
theorem C63_utf16 {i : Option Isa} (m : Mem) (p q : Ptr) (ws : List (BitVec 16)) (k : Nat) (hi : SwapImpl .u16 i ws.length)
    (hr : Spec.Reads m p (Spec.wordBytes 2 ws)) (hw : Spec.Writable m q (2 * k)) (ho : Spec.NoOverlap p (2 * ws.length) q (2 * k)) (hk : ws.length ≤ k) :
    Spec.Confined ((swap_endianness .u16 i ⟨p, ws.length⟩ ⟨q, k⟩).trace m) p (2 * ws.length) q (2 * ws.length) :=
  have hl := wordBytes_length 2 ws
  hl ▸ confined_any (fun p q => swap_endianness .u16 i ⟨p, ws.length⟩ ⟨q, k⟩) (fun _ _ _ => ren_swap_endianness ..) (fun _ _ => uses_swap_endianness trivial trivial ..)
    (fun m p q hr hw ho => ok_ne (C60_utf16 m p q ws k hi hr hw (hl ▸ ho) hk))
    (fun m p q h hr hw => hl.symm ▸ apart_utf16 m p q h ws k hi hr hw hk) (by omega) hr hw (hl.symm ▸ ho)

/-- C63, `utf32_swap_endianness`. -/
theorem C63_utf32 {i : Option Isa} (m : Mem) (p q : Ptr) (ws : List (BitVec 32)) (k : Nat) (hi : SwapImpl .u32 i ws.length)
    (hr : Spec.Reads m p (Spec.wordBytes 4 ws)) (hw : Spec.Writable m q (4 * k)) (ho : Spec.NoOverlap p (4 * ws.length) q (4 * k)) (hk : ws.length ≤ k) :
    Spec.Confined ((swap_endianness .u32 i ⟨p, ws.length⟩ ⟨q, k⟩).trace m) p (4 * ws.length) q (4 * ws.length) :=
  have hl := wordBytes_length 4 ws
  hl ▸ confined_any (fun p q => swap_endianness .u32 i ⟨p, ws.length⟩ ⟨q, k⟩) (fun _ _ _ => ren_swap_endianness ..) (fun _ _ => uses_swap_endianness trivial trivial ..)
    (fun m p q hr hw ho => ok_ne (C60_utf32 m p q ws k hi hr hw (hl ▸ ho) hk))
    (fun m p q h hr hw => hl.symm ▸ apart_utf32 m p q h ws k hi hr hw hk) (by omega) hr hw (hl.symm ▸ ho)

/-- C63, `utf16_swap_endianness_inplace`. -/
theorem C63_utf16_inplace {i : Option Isa} (m : Mem) (p : Ptr) (ws : List (BitVec 16)) (hi : SwapImpl .u16 i ws.length)
    (hr : Spec.Reads m p (Spec.wordBytes 2 ws)) :
    Spec.Confined ((swap_endianness_inplace .u16 i ⟨p, ws.length⟩).trace m) p (2 * ws.length) p (2 * ws.length) := by
  have hr' := Mem.keep_reads hr
  rw [wordBytes_length 2 ws] at hr'
  exact inpl_wrote (uses_swap_endianness_inplace (L := fun _ => True) (W := fun _ => True) (d := ⟨p, ws.length⟩) trivial trivial .u16 i)
    (C60_utf16_inplace _ p ws hi hr') (by rw [wordBytes_length, List.length_map])

/-- C63, `utf32_swap_endianness_inplace`. -/
theorem C63_utf32_inplace {i : Option Isa} (m : Mem) (p : Ptr) (ws : List (BitVec 32)) (hi : SwapImpl .u32 i ws.length)
    (hr : Spec.Reads m p (Spec.wordBytes 4 ws)) :
    Spec.Confined ((swap_endianness_inplace .u32 i ⟨p, ws.length⟩).trace m) p (4 * ws.length) p (4 * ws.length) := by
  have hr' := Mem.keep_reads hr
  rw [wordBytes_length 4 ws] at hr'
  exact inpl_wrote (uses_swap_endianness_inplace (L := fun _ => True) (W := fun _ => True) (d := ⟨p, ws.length⟩) trivial trivial .u32 i)
    (C60_utf32_inplace _ p ws hi hr') (by rw [wordBytes_length, List.length_map])

end Unicode

/-! ### Examples -/

/-- Two allocations of 16 bytes, all initialised; the first has `QUJD`, the encoding of `ABC`, at offset 2. -/
def twoMem : Mem := ⟨2, fun _ => 16, fun b i => if b = 0 then some ([0x7a#8, 0x7a#8, 0x51#8, 0x55#8, 0x4a#8, 0x44#8].getD i 0x7a#8) else some 0x20#8⟩

example : Spec.base64 false true [0x41#8, 0x42#8, 0x43#8] = [0x51#8, 0x55#8, 0x4a#8, 0x44#8] ∧
    Spec.Reads twoMem ⟨0, 2⟩ [0x51#8, 0x55#8, 0x4a#8, 0x44#8] ∧ (Spec.Writable twoMem ⟨1, 3⟩ 13 ∧ Spec.NoOverlap ⟨0, 2⟩ 4 ⟨1, 3⟩ 13) ∧
    Spec.Writable twoMem ⟨0, 6⟩ 10 ∧ Spec.NoOverlap ⟨0, 2⟩ 4 ⟨0, 6⟩ 10 := by
  refine ⟨by decide +kernel, ⟨by decide, ?_⟩, ⟨by unfold Spec.Writable; decide, fun i j _ _ h => absurd h.1 (by decide)⟩, by unfold Spec.Writable; decide,
    fun i j h _ h' => by have := h'.2; dsimp only at this; omega⟩
  intro i h
  have : i = 0 ∨ i = 1 ∨ i = 2 ∨ i = 3 := by simp at h; omega
  rcases this with rfl | rfl | rfl | rfl <;> rfl

/-- Decoding `QUJD` into the bytes that follow it in the same allocation. -/
example : Spec.Confined ((Base64.decode (some .avx2) Base64.STANDARD ⟨⟨0, 2⟩, 4⟩ ⟨⟨0, 6⟩, 10⟩).trace twoMem) ⟨0, 2⟩ 4 ⟨0, 6⟩ 3 := by
  have he : Spec.base64 false true [0x41#8, 0x42#8, 0x43#8] = [0x51#8, 0x55#8, 0x4a#8, 0x44#8] := by decide +kernel
  have := Base64.C63_decode (i := some .avx2) (by decide) (.inl ⟨rfl, rfl, rfl⟩ : Base64.IsVariant Base64.STANDARD false true) twoMem ⟨0, 2⟩ ⟨0, 6⟩ [0x41#8, 0x42#8, 0x43#8] 10
    (by
      rw [he]; refine ⟨by decide, fun i h => ?_⟩
      have : i = 0 ∨ i = 1 ∨ i = 2 ∨ i = 3 := by simp at h; omega
      rcases this with rfl | rfl | rfl | rfl <;> rfl)
    (by unfold Spec.Writable; decide) (by rw [he]; exact fun i j h _ h' => by have := h'.2; simp only [List.length_cons, List.length_nil] at h; dsimp only at this; omega)
  rw [he] at this
  exact this

/-- A 16-byte load for a 4-byte text is not confined although the memory has all 16 bytes; neither is a store one past the text. -/
example : ¬ Spec.Confined [.load ⟨0, 0⟩ 16] ⟨0, 2⟩ 4 ⟨1, 3⟩ 3 ∧ ¬ Spec.Confined [.load ⟨0, 2⟩ 4, .store ⟨1, 6⟩ 1] ⟨0, 2⟩ 4 ⟨1, 3⟩ 3 ∧
    Spec.Confined [.load ⟨0, 2⟩ 4, .store ⟨1, 3⟩ 3] ⟨0, 2⟩ 4 ⟨1, 3⟩ 3 := by
  refine ⟨fun h => ?_, fun h => ?_, fun a ha => ?_⟩
  · have := h _ (.head _) 0 (by decide)
    simp [Spec.In] at this
  · have := h _ (.tail _ (.head _)) 0 (by decide)
    simp [Spec.In] at this
  · simp only [List.mem_cons, List.not_mem_nil, or_false] at ha
    rcases ha with rfl | rfl <;> intro i hi <;> simp [Spec.In] <;> omega

/-- Reading the destination before writing it is not allowed by `NoStale`. -/
example : ¬ Spec.NoStale (Spec.In ⟨0, 2⟩ 4) [.load ⟨1, 3⟩ 1, .store ⟨1, 3⟩ 1] ∧ Spec.NoStale (Spec.In ⟨0, 2⟩ 4) [.store ⟨1, 3⟩ 1, .load ⟨1, 3⟩ 1] := by
  simp [Spec.NoStale, Spec.In]

/-- The trace of a run: `hex2`-like copying of one byte. -/
example : (do let x ← rd ⟨0, 2⟩ 1; storeBytes ⟨1, 3⟩ [x, x] : Prog Unit).trace twoMem = [.load ⟨0, 3⟩ 1, .store ⟨1, 3⟩ 2] := by decide +kernel

end Simd
