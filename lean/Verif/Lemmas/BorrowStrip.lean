import Verif.Lemmas.BorrowForgiving
/-
Decoding in place of a text from which whitespace was removed, and the memory it starts from.
-/
namespace Simd.Base64
open Spec Borrow

theorem fine_inplace {di : Option Isa} (hd : di ≠ some .sse2) {m : Mem} {p : Ptr} {xs : List Byte} (hr : Reads m p xs) (r : Ptr) :
    Fine (decode_inplace di STANDARD_FORGIVING ⟨p, xs.length⟩) m r 0 p xs.length := by
  have hu := uses_decode_inplace (L := fun _ => True) (W := fun _ => True) (d := ⟨p, xs.length⟩) trivial trivial di STANDARD_FORGIVING
  have key : ∀ m, Reads m p xs → (∃ a m', (decode_inplace di STANDARD_FORGIVING ⟨p, xs.length⟩).run m = .ok a m' ∧ SameOutside m m' p xs.length) ∨
      ∃ m', (decode_inplace di STANDARD_FORGIVING ⟨p, xs.length⟩).run m = .err m' ∧ SameOutside m m' p xs.length := by
    intro m hr
    rcases wp_out ((decApi hd STANDARD_FORGIVING).inplace_wp hr.has) with ⟨a, m', h1, ys, hy, rfl, rfl⟩ | ⟨m', h1, -, h2⟩
    · have hle := (decApi hd STANDARD_FORGIVING).full_le hy
      exact .inl ⟨_, _, h1, .write rfl (Nat.le_refl _) (by omega)⟩
    · exact .inr ⟨m', h1, h2⟩
  refine ⟨hu, ?_, Spec.Confined.inside_inplace ?_ _ _⟩
  · rcases key m hr with ⟨a, m', h, -⟩ | ⟨m', h, -⟩ <;> rw [h] <;> nofun
  · rcases key _ (Mem.keep_reads hr) with ⟨a, m', h, h2⟩ | ⟨m', h, h2⟩
    · exact confined_inplace hu (.inl ⟨_, h⟩) fun b o hb => h2.only.2.2.2 b o hb
    · exact confined_inplace hu (.inr h) fun b o hb => h2.only.2.2.2 b o hb

theorem good_inplace {di : Option Isa} (hd : di ≠ some .sse2) {m : Mem} {p : Ptr} {xs : List Byte} (hr : Reads m p xs) :
    Good1 (fun p => decode_inplace di STANDARD_FORGIVING ⟨p, xs.length⟩) p xs.length m :=
  good1_of (fun _ _ hr => ⟨⟨0, 0⟩, ⟨0, 0⟩, .inl (fine_inplace hd hr _)⟩) hr

theorem good_removed (fi : Option Isa) {di : Option Isa} (hd : di ≠ some .sse2) {m M : Mem} {p : Ptr} {xs : List Byte} {k : Nat} (hr : Reads m p xs)
    (h : (remove_ascii_whitespace_inplace fi ⟨p, xs.length⟩).run m = .ok ⟨p, k⟩ M) : Good1 (fun p => decode_inplace di STANDARD_FORGIVING ⟨p, k⟩) p k M := by
  have hs := stripWs_length xs
  have := hr.has.bound
  have hw := remove_inplace_wp fi (Q := fun s m' => s = ⟨p, (stripWs xs).length⟩ ∧ m' = m.write p (stripWs xs)) (E := fun _ => False) hr.has ⟨rfl, rfl⟩
  rcases wp_out hw with ⟨a, m', h1, rfl, rfl⟩ | ⟨_, _, h⟩
  · rw [h] at h1
    cases h1
    exact good_inplace hd (hasBytes_write_self (by omega))
  · exact h.elim

/-- What `strip` does. -/
theorem strip_run (fi : Option Isa) {m : Mem} {p q : Ptr} {xs : List Byte} {pos d : Nat} (hr : Reads m p xs) (hw : Writable m q d)
    (ho : NoOverlap p xs.length q d) (hle : xs.length ≤ d) (hpos : pos ≠ xs.length) (h : (find_non_ascii_whitespace fi ⟨p, xs.length⟩).run m = .ok pos m) :
    ∃ rem, (Borrow.Base64.strip xs.length pos p q).run m = .ok rem (m.write q (stripWs xs)) ∧ pos + rem = (stripWs xs).length := by
  have hx := hr.has
  have hbd := hx.bound
  have hs := stripWs_length xs
  have hle' := firstWs_le xs
  obtain rfl : pos = firstWs xs := by
    rcases wp_out (find_wp fi (Q := fun r _ => r = firstWs xs) (E := fun _ => False) hx rfl) with ⟨a, m', h1, rfl⟩ | ⟨_, _, h⟩
    · rw [h] at h1; cases h1; rfl
    · exact h.elim
  have hb : Apart p q xs.length d := (ho.apart.resolve_left (by omega)).resolve_left (by omega)
  have hb : Apart p q xs.length xs.length := hb.mono (Nat.le_refl _) hle
  unfold Writable at hw
  have hl : (xs.take (firstWs xs)).length = firstWs xs := by rw [List.length_take]; omega
  have e := stripWs_first xs
  have el : firstWs xs + (stripWs (xs.drop (firstWs xs))).length = (stripWs xs).length := by rw [e, List.length_append, hl]
  have hwp : wp (Borrow.Base64.strip xs.length (firstWs xs) p q) (fun r m' => firstWs xs + r = (stripWs xs).length ∧ m' = m.write q (stripWs xs)) (fun _ => False) m := by
    unfold Borrow.Base64.strip
    rw [wp_bind]
    refine copy_wp (hx.take (firstWs xs)) hl (by unfold CanWrite; omega) (hb.mono hle' hle') ?_
    rw [wp_bind, wp_padd]
    refine ⟨by simp; omega, ?_⟩
    rw [wp_bind, wp_padd]
    refine ⟨by simp; omega, ?_⟩
    refine remove_wp (by rw [List.length_drop]) ((hx.write_apart hb (by omega)).drop _ hle') (by unfold CanWrite; simp; omega)
      (by unfold Apart at hb; unfold Behind; simp; omega) ?_
    rw [Mem.write_append' m q _ _ hl, ← e]
    exact ⟨el, rfl⟩
  rcases wp_out hwp with ⟨a, m', h1, h2, rfl⟩ | ⟨_, _, h⟩
  · exact ⟨a, h1, h2⟩
  · exact h.elim

theorem good_stripped (fi : Option Isa) {di : Option Isa} (hd : di ≠ some .sse2) {m M : Mem} {p q : Ptr} {xs : List Byte} {pos rem d : Nat} (hr : Reads m p xs) (hw : Writable m q d)
    (ho : NoOverlap p xs.length q d) (hle : xs.length ≤ d) (hpos : pos ≠ xs.length)
    (h : (find_non_ascii_whitespace fi ⟨p, xs.length⟩).run m = .ok pos m) (h' : (Borrow.Base64.strip xs.length pos p q).run m = .ok rem M) :
    Good1 (fun p => decode_inplace di STANDARD_FORGIVING ⟨p, pos + rem⟩) q (pos + rem) M := by
  obtain ⟨a, h1, h2⟩ := strip_run fi hr hw ho hle hpos h
  rw [h'] at h1
  cases h1
  have hs := stripWs_length xs
  unfold Writable at hw
  rw [h2]
  exact good_inplace hd (hasBytes_write_self (by omega))

/-- What the scanner returns, and that it leaves the memory as it is. -/
theorem find_run (fi : Option Isa) {m : Mem} {p : Ptr} {xs : List Byte} (hr : Reads m p xs) : (find_non_ascii_whitespace fi ⟨p, xs.length⟩).run m = .ok (firstWs xs) m := by
  rcases wp_out (find_wp fi (Q := fun r m' => r = firstWs xs ∧ m' = m) (E := fun _ => False) hr.has ⟨rfl, rfl⟩) with ⟨a, m', h1, rfl, rfl⟩ | ⟨_, _, h⟩
  · exact h1
  · exact h.elim

end Simd.Base64
