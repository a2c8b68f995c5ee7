import Verif.Lemmas.BorrowAppends
import Verif.Lemmas.BorrowForgivingVec
import Verif.Props.Borrows
/-
C87: the functions that allocate obey the aliasing rules for references, free what they do not return, and return owners of all that is left.
-/
namespace Simd
open Spec Borrow

namespace Borrow

theorem obeys_new {α : Type} {P : Plat} {s : State} {c : HeapCall α} {o : Out α} (hs : Sound s) (hv : c.vec = none) (hP : (place s c.shared.ptr).buf < s.mem.nbuf)
    (h : Sim (c.borrow P s) o (fun r r' s' => AfterCall s s' (GH (place s c.shared.ptr) c.shared.len c.shared.ptr.buf s.mem.nbuf) ∧ NewOwner s s' (owner c r).1 (owner c r).2 ∧ r' = untagResult s' c r)
      (BoxErr s (place s c.shared.ptr) c.shared.len c.shared.ptr.buf)) : ObeysHeap P s c o := by
  have hG : ∀ t, heapLoans s c t = GH (place s c.shared.ptr) c.shared.len c.shared.ptr.buf s.mem.nbuf := fun t => by
    funext b i
    unfold heapLoans
    rw [hv]
    by_cases h1 : In (place s c.shared.ptr) c.shared.len b i
    · rw [if_pos h1]; exact (over_in h1).symm
    · rw [if_neg h1]; refine .trans ?_ (over_out h1).symm; rfl
  unfold Sim at h
  unfold ObeysHeap
  split at h
  · rename_i r s' r' m e
    rw [e]
    obtain ⟨rfl, h1, h2, h3⟩ := h
    refine ⟨rfl, h3, by rw [hG]; exact h1, h2.owns hs h1 (GH_own hP), fun b hb hb' hne => absurd ?_ hne, .inl ⟨by rw [h2.home], fun v hv' => by rw [hv] at hv'; cases hv'⟩⟩
    have := h2.nbuf
    rw [h2.home]; omega
  · rename_i s' m e
    rw [e]
    obtain ⟨rfl, h1, h2⟩ := h
    exact ⟨rfl, by rw [hG]; exact h1, hv, h2⟩
  · rename_i e; rw [e]; trivial
  · exact h.elim

theorem obeys_vec {α : Type} {P : Plat} {s : State} {c : HeapCall α} {o : Out α} {v : RVec} (hv : c.vec = some v) {W : α → RVec} (hW : ∀ r, owner c r = (⟨(W r).buf, 0⟩, (W r).cap))
    (h : Sim (c.borrow P s) o (fun r r' s' => Grown s s' (place s c.shared.ptr) c.shared.len c.shared.ptr.buf v (W r) ∧ r' = untagResult s' c r) (fun _ => False)) : ObeysHeap P s c o := by
  have hG : ∀ t, heapLoans s c t = GA s (place s c.shared.ptr) c.shared.len c.shared.ptr.buf v t := fun t => by
    funext b i
    unfold heapLoans
    rw [hv]
    by_cases h1 : In (place s c.shared.ptr) c.shared.len b i
    · rw [if_pos h1]; exact (over_in h1).symm
    · rw [if_neg h1]; refine .trans ?_ (over_out h1).symm; rfl
  unfold Sim at h
  unfold ObeysHeap
  split at h
  · rename_i r s' r' m e
    rw [e]
    obtain ⟨rfl, h1, h3⟩ := h
    dsimp only
    rw [hW]
    refine ⟨rfl, h3, by rw [hG]; exact h1.after, h1.owns, fun b hb hb' hne => ?_, ?_⟩
    · dsimp only at hne; rcases h1.which with ⟨-, -, h4⟩ | ⟨-, h4, h5, -⟩ <;> omega
    · rcases h1.which with ⟨h4, -⟩ | ⟨-, h4, -, h5⟩
      · exact .inr ⟨v, hv, h4⟩
      · exact .inl ⟨by rw [h4], fun v' hv' => by rw [hv] at hv'; cases hv'; exact h5⟩
  · exact h.2.elim
  · rename_i e; rw [e]; trivial
  · exact h.elim

theorem ready_of {s : State} {p : Ptr} {n : Nat} {xs prev : List Byte} {v : RVec} (hs : Sound s) (hr : Readable s p n) (ht : p.buf < s.next) (hn : (place s p).buf < s.mem.nbuf) (hl : xs.length = n)
    (hx : Reads s.mem (place s p) xs) (hO : Owns s ⟨v.buf, 0⟩ v.cap) (hv : IsVec s.mem { v with buf := s.home v.buf } prev) (hne : (place s p).buf ≠ s.home v.buf) : Ready s p (place s p) n xs v :=
  ⟨hs, hr, ht, rfl, hn, hl, hx, hO, by
    obtain ⟨-, h1, h2, h3⟩ := hv
    have := h3.1
    dsimp only at *; omega, hne⟩

theorem hex_fine (M : Machine) {i : Option Isa} {xs : List Byte} (hr : M.Runs Dispatch.hex_decode i) (hP : xs.length ≤ M.P.isizeMax) (d : Nat) (hd : d ≤ M.P.isizeMax) (m : Mem) (p q : Ptr) (hx : Reads m p xs) (hw : Writable m q d)
    (ho : NoOverlap p xs.length q d) : Fine (Simd.Hex.decode i ⟨p, xs.length⟩ ⟨q, d⟩) m p xs.length q d :=
  Call.fine M (.hexDecode i ⟨p, xs.length⟩ ⟨q, d⟩) m hr ⟨⟨xs, rfl, hx⟩, hw, hP, hd, ho⟩

theorem half_max (P : Plat) : P.usizeMax / 2 ≤ P.isizeMax := by
  unfold Plat.isizeMax Plat.usizeMax
  have h := P.hbits
  have : 2 ^ P.bits = 2 * 2 ^ (P.bits - 1) := by rw [← Nat.pow_succ']; congr 1; omega
  omega

theorem ok_noerr {α : Type} {o : Out α} {m' : Mem} {Q : α → Mem → Prop} (h : ∃ a m, o = .ok a m ∧ Q a m) : o ≠ .err m' := by
  obtain ⟨a, m, h, -⟩ := h; rw [h]; nofun

theorem panic_noerr {α : Type} {o : Out α} {m' : Mem} (h : o = .panic) : o ≠ .err m' := by rw [h]; nofun

end Borrow

/-- C87: a function that allocates, or that appends to a vector, and is lent what safe Rust lends it, obeys the aliasing rules for references and the rules for allocations: with borrow stacks and
deallocation it has no undefined behaviour (no access to freed memory, no second deallocation, no deallocation with a wrong size) and does what it does without them. Afterwards the owner it
returns may write and deallocate its whole allocation; every other allocation it made has been deallocated, and all of them if it returns `Err`; a vector that has moved has left nothing. -/
theorem C87_call (M : Machine) {α : Type} (c : HeapCall α) (s : State) (hr : c.RunsOn M) (hs : Sound s) (hl : LendsHeap s c) (hb : (untagHeap s c).Borrows M.P s.mem) :
    ObeysHeap M.P s c (((untagHeap s c).prog M.P).run s.mem) := by
  have hsafe := HeapCall.safe M (untagHeap s c) s.mem (by cases c <;> exact hr) hb
  have hmax := half_max M.P
  cases c with
  | base64Encode i config data ty =>
    obtain ⟨p, n⟩ := data
    obtain ⟨⟨xs, hl', hx⟩, hn, hP, -⟩ := id hb
    obtain rfl : xs.length = n := hl'
    obtain ⟨hi, url, pad, hc⟩ := id hr
    have hne : ∀ m', (Base64.encode_to_boxed_str M.P i config ⟨place s p, xs.length⟩).run s.mem ≠ .err m' := fun m' => by
      have h := Base64.C61_encode_owned M.P (Dispatch.Runs.ne_sse2 hi (by decide)) hc s.mem (place s p) xs hx hn hP
      by_cases hh : (Spec.base64 url pad xs).length ≤ M.P.usizeMax / 2
      · exact ok_noerr (h.1 hh).1
      · exact panic_noerr (h.2 (by omega)).1
    have hF : ∀ d, d ≤ M.P.isizeMax → ∀ m p q, Reads m p xs → Writable m q d → NoOverlap p xs.length q d → Fine (Base64.encode M.P i config ⟨p, xs.length⟩ ⟨q, d⟩) m p xs.length q d :=
      fun d hd m p q hx hw ho => Call.fine M (.base64Encode i config ⟨p, xs.length⟩ ⟨q, d⟩) m hr ⟨⟨xs, rfl, hx⟩, hw, hP, hd, ho⟩
    have h := from_encode_sim hs (GH_own hn) ty (Borrow.Base64.encode_box_sim M.P i config hs hl.readable rfl hn rfl hx hF (by cases ty <;> exact Prog.safe_head hsafe) hne)
    refine obeys_new hs rfl hn ?_
    cases ty <;> exact h
  | base64Decode i config data ty =>
    obtain ⟨p, n⟩ := data
    obtain ⟨⟨xs, hl', hx⟩, hn, hP, -⟩ := id hb
    obtain rfl : xs.length = n := hl'
    obtain ⟨hi, url, pad, hc⟩ := id hr
    have h := from_decode_sim hs (GH_own hn) ty (Borrow.Base64.decode_box_sim M.P (Dispatch.Runs.ne_sse2 hi (by decide)) config hs hl.readable rfl hn rfl hx (by cases ty <;> exact Prog.safe_head hsafe))
    refine obeys_new hs rfl hn ?_
    cases ty <;> exact h
  | base64EncodeAppend extra i config src v =>
    obtain ⟨p, n⟩ := src
    obtain ⟨⟨xs, hl', hx⟩, hn, hP, hv⟩ := id hb
    obtain rfl : xs.length = n := hl'
    obtain ⟨⟨prev, hv1⟩, hv2, hv3⟩ := hv _ rfl
    obtain ⟨hi, url, pad, hc⟩ := id hr
    have hR : Ready s p (place s p) xs.length xs v := ready_of hs hl.readable hl.shared_tag hn rfl hx (hl.owns v rfl) hv1 hv2
    have hne : ∀ m', (Base64.encode_append M.P extra i config ⟨place s p, xs.length⟩ { v with buf := s.home v.buf }).run s.mem ≠ .err m' := fun m' => by
      have h := Base64.C61_encode_append M.P extra (Dispatch.Runs.ne_sse2 hi (by decide)) hc s.mem (place s p) xs hx hn hP _ prev hv1 hv2 hv3
      by_cases hh : (Spec.base64 url pad xs).length ≤ M.P.usizeMax / 2 ∧ ((Spec.base64 url pad xs).length ≤ v.cap - v.len ∨ v.len + (Spec.base64 url pad xs).length + extra ≤ M.P.isizeMax)
      · exact ok_noerr (h.1 hh)
      · exact panic_noerr (h.2 hh)
    have hF : ∀ d, d ≤ M.P.usizeMax / 2 → ∀ m p q, Reads m p xs → Writable m q d → NoOverlap p xs.length q d → Fine (Base64.encode M.P i config ⟨p, xs.length⟩ ⟨q, d⟩) m p xs.length q d :=
      fun d hd m p q hx hw ho => Call.fine M (.base64Encode i config ⟨p, xs.length⟩ ⟨q, d⟩) m hr ⟨⟨xs, rfl, hx⟩, hw, hP, by show d ≤ M.P.isizeMax; omega, ho⟩
    exact obeys_vec (W := fun r => r) rfl (fun _ => rfl) ((Borrow.Base64.encode_append_sim M.P extra i config hR hF hsafe hne).mono (fun _ _ _ h => h) fun _ h => h)
  | base64DecodeAppend extra i config src v =>
    obtain ⟨p, n⟩ := src
    obtain ⟨⟨xs, hl', hx⟩, hn, hP, hv⟩ := id hb
    obtain rfl : xs.length = n := hl'
    obtain ⟨⟨prev, hv1⟩, hv2, hv3⟩ := hv _ rfl
    obtain ⟨hi, url, pad, hc⟩ := id hr
    have hR : Ready s p (place s p) xs.length xs v := ready_of hs hl.readable hl.shared_tag hn rfl hx (hl.owns v rfl) hv1 hv2
    exact obeys_vec (W := fun r => r.1) rfl (fun _ => rfl) ((Borrow.Base64.decode_append_sim M.P extra (Dispatch.Runs.ne_sse2 hi (by decide)) config hR hsafe).mono (fun _ _ _ h => ⟨h.1.1, Prod.ext h.1.2 h.2.symm⟩) fun _ h => h)
  | base32Encode w i config data ty =>
    obtain ⟨p, n⟩ := data
    obtain ⟨⟨xs, hl', hx⟩, hn, hP, -⟩ := id hb
    obtain rfl : xs.length = n := hl'
    obtain ⟨-, hi, hex, pad, hc⟩ := id hr
    have hne : ∀ m', (Base32.encode_to_boxed_str M.P w i config ⟨place s p, xs.length⟩).run s.mem ≠ .err m' := fun m' => by
      have h := Base32.C61_encode_owned M.P w (Base32.impl_of_runs hi (by decide) (by decide)) hc s.mem (place s p) xs hx hn hP
      by_cases hh : (Spec.base32 hex pad xs).length ≤ M.P.usizeMax / 2
      · exact ok_noerr (h.1 hh).1
      · exact panic_noerr (h.2 (by omega)).1
    have hF : ∀ d, d ≤ M.P.isizeMax → ∀ m p q, Reads m p xs → Writable m q d → NoOverlap p xs.length q d → Fine (Base32.encode M.P w i config ⟨p, xs.length⟩ ⟨q, d⟩) m p xs.length q d :=
      fun d hd m p q hx hw ho => Call.fine M (.base32Encode w i config ⟨p, xs.length⟩ ⟨q, d⟩) m hr ⟨⟨xs, rfl, hx⟩, hw, hP, hd, ho⟩
    have h := from_encode_sim hs (GH_own hn) ty (Borrow.Base32.encode_box_sim M.P w i config hs hl.readable rfl hn rfl hx hF (by cases ty <;> exact Prog.safe_head hsafe) hne)
    refine obeys_new hs rfl hn ?_
    cases ty <;> exact h
  | base32Decode w i config data ty =>
    obtain ⟨p, n⟩ := data
    obtain ⟨⟨xs, hl', hx⟩, hn, hP, -⟩ := id hb
    obtain rfl : xs.length = n := hl'
    obtain ⟨-, hi, hex, pad, hc⟩ := id hr
    have h := from_decode_sim hs (GH_own hn) ty (Borrow.Base32.decode_box_sim M.P w (Base32.impl_of_runs hi (by decide) (by decide)) config hs hl.readable rfl hn rfl hx (by cases ty <;> exact Prog.safe_head hsafe))
    refine obeys_new hs rfl hn ?_
    cases ty <;> exact h
  | base32EncodeAppend w extra i config src v =>
    obtain ⟨p, n⟩ := src
    obtain ⟨⟨xs, hl', hx⟩, hn, hP, hv⟩ := id hb
    obtain rfl : xs.length = n := hl'
    obtain ⟨⟨prev, hv1⟩, hv2, hv3⟩ := hv _ rfl
    obtain ⟨-, hi, hex, pad, hc⟩ := id hr
    have hR : Ready s p (place s p) xs.length xs v := ready_of hs hl.readable hl.shared_tag hn rfl hx (hl.owns v rfl) hv1 hv2
    have hne : ∀ m', (Base32.encode_append M.P w extra i config ⟨place s p, xs.length⟩ { v with buf := s.home v.buf }).run s.mem ≠ .err m' := fun m' => by
      have h := Base32.C61_encode_append M.P w extra (Base32.impl_of_runs hi (by decide) (by decide)) hc s.mem (place s p) xs hx hn hP _ prev hv1 hv2 hv3
      by_cases hh : (Spec.base32 hex pad xs).length ≤ M.P.usizeMax / 2 ∧ ((Spec.base32 hex pad xs).length ≤ v.cap - v.len ∨ v.len + (Spec.base32 hex pad xs).length + extra ≤ M.P.isizeMax)
      · exact ok_noerr (h.1 hh)
      · exact panic_noerr (h.2 hh)
    have hF : ∀ d, d ≤ M.P.usizeMax / 2 → ∀ m p q, Reads m p xs → Writable m q d → NoOverlap p xs.length q d → Fine (Base32.encode M.P w i config ⟨p, xs.length⟩ ⟨q, d⟩) m p xs.length q d :=
      fun d hd m p q hx hw ho => Call.fine M (.base32Encode w i config ⟨p, xs.length⟩ ⟨q, d⟩) m hr ⟨⟨xs, rfl, hx⟩, hw, hP, by show d ≤ M.P.isizeMax; omega, ho⟩
    exact obeys_vec (W := fun r => r) rfl (fun _ => rfl) ((Borrow.Base32.encode_append_sim M.P w extra i config hR hF hsafe hne).mono (fun _ _ _ h => h) fun _ h => h)
  | base32DecodeAppend w extra i config src v =>
    obtain ⟨p, n⟩ := src
    obtain ⟨⟨xs, hl', hx⟩, hn, hP, hv⟩ := id hb
    obtain rfl : xs.length = n := hl'
    obtain ⟨⟨prev, hv1⟩, hv2, hv3⟩ := hv _ rfl
    obtain ⟨-, hi, hex, pad, hc⟩ := id hr
    have hR : Ready s p (place s p) xs.length xs v := ready_of hs hl.readable hl.shared_tag hn rfl hx (hl.owns v rfl) hv1 hv2
    exact obeys_vec (W := fun r => r.1) rfl (fun _ => rfl) ((Borrow.Base32.decode_append_sim M.P w extra (Base32.impl_of_runs hi (by decide) (by decide)) config hR hsafe).mono (fun _ _ _ h => ⟨h.1.1, Prod.ext h.1.2 h.2.symm⟩) fun _ h => h)
  | hexEncode i case data ty =>
    obtain ⟨p, n⟩ := data
    obtain ⟨⟨xs, hl', hx⟩, hn, hP, -⟩ := id hb
    obtain rfl : xs.length = n := hl'
    have hne : ∀ m', (Hex.encode_to_boxed_str M.P i ⟨place s p, xs.length⟩ case).run s.mem ≠ .err m' := fun m' => by
      have h := Hex.C61_encode_owned M.P i case s.mem (place s p) xs hx hn hP
      by_cases hh : (Spec.hexEncode (case == .upper) xs).length ≤ M.P.usizeMax / 2
      · exact ok_noerr (h.1 hh).1
      · exact panic_noerr (h.2 (by omega)).1
    have hF : ∀ d, d ≤ M.P.isizeMax → ∀ m p q, Reads m p xs → Writable m q d → NoOverlap p xs.length q d → Fine (Hex.encode M.P i ⟨p, xs.length⟩ ⟨q, d⟩ case) m p xs.length q d :=
      fun d hd m p q hx hw ho => Call.fine M (.hexEncode i case ⟨p, xs.length⟩ ⟨q, d⟩) m hr ⟨⟨xs, rfl, hx⟩, hw, hP, hd, ho⟩
    have h := from_encode_sim hs (GH_own hn) ty (Borrow.Hex.encode_box_sim M.P i case hs hl.readable rfl hn rfl hx hF (by cases ty <;> exact Prog.safe_head hsafe) hne)
    refine obeys_new hs rfl hn ?_
    cases ty <;> exact h
  | hexDecode i data ty =>
    obtain ⟨p, n⟩ := data
    obtain ⟨⟨xs, hl', hx⟩, hn, hP, -⟩ := id hb
    obtain rfl : xs.length = n := hl'
    have hF : xs.length / 2 ≤ M.P.isizeMax → ∀ m p q, Reads m p xs → Writable m q (xs.length / 2) → NoOverlap p xs.length q (xs.length / 2) → Fine (Hex.decode i ⟨p, xs.length⟩ ⟨q, xs.length / 2⟩) m p xs.length q (xs.length / 2) :=
      hex_fine M hr hP _
    have h := from_decode_sim hs (GH_own hn) ty (Borrow.Hex.decode_box_sim M.P i hs hl.readable rfl hn rfl hx hF (by cases ty <;> exact Prog.safe_head hsafe))
    refine obeys_new hs rfl hn ?_
    cases ty <;> exact h
  | hexEncodeAppend extra i case src v =>
    obtain ⟨p, n⟩ := src
    obtain ⟨⟨xs, hl', hx⟩, hn, hP, hv⟩ := id hb
    obtain rfl : xs.length = n := hl'
    obtain ⟨⟨prev, hv1⟩, hv2, hv3⟩ := hv _ rfl
    have hR : Ready s p (place s p) xs.length xs v := ready_of hs hl.readable hl.shared_tag hn rfl hx (hl.owns v rfl) hv1 hv2
    have hne : ∀ m', (Hex.encode_append M.P extra i ⟨place s p, xs.length⟩ { v with buf := s.home v.buf } case).run s.mem ≠ .err m' := fun m' => by
      have h := Hex.C61_encode_append M.P extra i case s.mem (place s p) xs hx hn hP _ prev hv1 hv2 hv3
      by_cases hh : (Spec.hexEncode (case == .upper) xs).length ≤ M.P.usizeMax / 2 ∧ ((Spec.hexEncode (case == .upper) xs).length ≤ v.cap - v.len ∨ v.len + (Spec.hexEncode (case == .upper) xs).length + extra ≤ M.P.isizeMax)
      · exact ok_noerr (h.1 hh)
      · exact panic_noerr (h.2 hh)
    have hF : ∀ d, d ≤ M.P.usizeMax / 2 → ∀ m p q, Reads m p xs → Writable m q d → NoOverlap p xs.length q d → Fine (Hex.encode M.P i ⟨p, xs.length⟩ ⟨q, d⟩ case) m p xs.length q d :=
      fun d hd m p q hx hw ho => Call.fine M (.hexEncode i case ⟨p, xs.length⟩ ⟨q, d⟩) m hr ⟨⟨xs, rfl, hx⟩, hw, hP, by show d ≤ M.P.isizeMax; omega, ho⟩
    exact obeys_vec (W := fun r => r) rfl (fun _ => rfl) ((Borrow.Hex.encode_append_sim M.P extra i case hR hF hsafe hne).mono (fun _ _ _ h => h) fun _ h => h)
  | hexDecodeAppend extra i src v =>
    obtain ⟨p, n⟩ := src
    obtain ⟨⟨xs, hl', hx⟩, hn, hP, hv⟩ := id hb
    obtain rfl : xs.length = n := hl'
    obtain ⟨⟨prev, hv1⟩, hv2, hv3⟩ := hv _ rfl
    have hR : Ready s p (place s p) xs.length xs v := ready_of hs hl.readable hl.shared_tag hn rfl hx (hl.owns v rfl) hv1 hv2
    have hF : ∀ m p q, Reads m p xs → Writable m q (xs.length / 2) → NoOverlap p xs.length q (xs.length / 2) → Fine (Hex.decode i ⟨p, xs.length⟩ ⟨q, xs.length / 2⟩) m p xs.length q (xs.length / 2) :=
      hex_fine M hr hP _ (Nat.le_trans (Nat.div_le_self _ _) hP)
    exact obeys_vec (W := fun r => r.1) rfl (fun _ => rfl) ((Borrow.Hex.decode_append_sim M.P extra i hR hF hsafe).mono (fun _ _ _ h => ⟨h.1.1, Prod.ext h.1.2 h.2.symm⟩) fun _ h => h)
  | forgiving extra fi di data =>
    obtain ⟨p, n⟩ := data
    obtain ⟨⟨xs, hl', hx⟩, hn, hP, -⟩ := id hb
    obtain rfl : xs.length = n := hl'
    have hF : ∀ d, d ≤ M.P.isizeMax → ∀ m p q, Reads m p xs → Writable m q d → NoOverlap p xs.length q d → Fine (Base64.forgiving_decode fi di ⟨p, xs.length⟩ ⟨q, d⟩) m p xs.length q d :=
      fun d hd m p q hx hw ho => Call.fine M (.forgiving fi di ⟨p, xs.length⟩ ⟨q, d⟩) m hr ⟨⟨xs, rfl, hx⟩, hw, hP, hd, ho⟩
    exact obeys_new hs rfl hn ((Borrow.Base64.forgiving_vec_sim M.P extra fi (Dispatch.Runs.ne_sse2 hr.2 (by decide)) hs hl.readable rfl hn rfl hx hF hsafe).mono (fun _ _ _ h => ⟨h.1, h.2.1, h.2.move⟩) fun _ h => h)

theorem Borrow.drop_shape {α : Type} (c : HeapCall α) (r : α) : dropResult c r = if (owner c r).2 = 0 then pure () else dealloc (owner c r).1 (owner c r).2 := by
  cases c
  case base64Encode | base64Decode | base32Encode | base32Decode | hexEncode | hexDecode => cases r <;> rfl
  all_goals rfl

/-- C87, the end of the scope of the result: dropping the box, string or vector has no undefined behaviour, and after it nothing is left that the call allocated, nor of the vector it was given;
nothing else has changed. -/
theorem C87_drop (M : Machine) {α : Type} (c : HeapCall α) (s : State) (hr : c.RunsOn M) (hs : Sound s) (hl : LendsHeap s c) (hb : (untagHeap s c).Borrows M.P s.mem) (r : α) (s' : State)
    (hc : c.borrow M.P s = .ok r s') :
    ∃ s'', dropResult c r s' = .ok () s'' ∧ s''.mem = s'.mem ∧ (∀ b, s.mem.nbuf ≤ b → b < s'.mem.nbuf → Freed s'' b) ∧ (∀ v, c.vec = some v → Freed s'' (s.home v.buf)) ∧
      ∀ b i, b < s.mem.nbuf → (∀ v, c.vec = some v → b ≠ s.home v.buf) → s''.stack b i = s'.stack b i := by
  have h := C87_call M c s hr hs hl hb
  unfold ObeysHeap at h
  rw [hc] at h
  split at h
  · rename_i r1 s1 r2 m e1 e2
    cases e1
    obtain ⟨rfl, h1, h2, h3, h4, h5⟩ := h
    have hd := drop_sim (E := fun _ => True) (drop_shape c r) h3
    unfold Sim at hd
    split at hd
    · rename_i _ s2 _ m e3 e4
      cases e4
      obtain ⟨hm, h6, h7, h8, h9, h10⟩ := hd
      have hsz := h3.size
      have keep : ∀ b, Freed s' b → Freed s2 b := fun b hf i hi => by
        by_cases hh : b = s'.home (owner c r).1.buf ∧ i < (owner c r).2
        · exact h9 b i hh
        · rw [h10 b i hh]; exact hf i (by rwa [hm] at hi)
      have mine : Freed s2 (s'.home (owner c r).1.buf) := fun i hi => h9 _ i ⟨rfl, by rw [hm, hsz] at hi; exact hi⟩
      refine ⟨s2, e3, hm, fun b hb hb' => ?_, fun v hv => ?_, fun b i hb hne => h10 b i ?_⟩
      · by_cases hh : b = s'.home (owner c r).1.buf
        · rw [hh]; exact mine
        · exact keep b (h4 b hb hb' hh)
      · rcases h5 with ⟨-, h5⟩ | ⟨v', hv', h5⟩
        · exact keep _ (h5 v hv)
        · rw [hv] at hv'; cases hv'
          rw [h5, h2.home v.buf (hl.owns v hv).tag] at mine
          exact mine
      · rintro ⟨hh, -⟩
        rcases h5 with ⟨h5, -⟩ | ⟨v, hv, h5⟩
        · omega
        · rw [h5, h2.home v.buf (hl.owns v hv).tag] at hh
          exact hne v hv hh
    all_goals rename_i e4; try cases e4
    all_goals exact hd.elim
  · rename_i e _; cases e
  · rename_i e _; cases e
  · exact h.elim

/-- C87, afterwards: the caller may still read the source it lent and owns the result; the state is one in which it may make the next call; and the call has not touched the stacks of anything
that it did not borrow. -/
theorem C87_again (M : Machine) {α : Type} (c : HeapCall α) (s : State) (hr : c.RunsOn M) (hs : Sound s) (hl : LendsHeap s c) (hb : (untagHeap s c).Borrows M.P s.mem) :
    let after := fun s' : State => Sound s' ∧ Readable s' c.shared.ptr c.shared.len ∧ s'.frame = s.frame ∧
      ∀ b i, b < s.mem.nbuf → ¬ In (place s c.shared.ptr) c.shared.len b i → (∀ v, c.vec = some v → b ≠ s.home v.buf) → s'.stack b i = s.stack b i
    match c.borrow M.P s with
    | .ok r s' => after s' ∧ Owns s' (owner c r).1 (owner c r).2
    | .err s' => after s'
    | .panic => True
    | .ub => False := by
  intro after
  have h := C87_call M c s hr hs hl hb
  have key : ∀ t s', AfterCall s s' (heapLoans s c t) → after s' := fun t s' h =>
    ⟨h.sound hs, h.readable' hl.shared_tag (fun b i hi => .inr (.inl (by unfold heapLoans; rw [if_pos hi]))) hl.readable, h.frame, fun b i h1 h2 h3 => h.same (by
      unfold heapLoans
      rw [if_neg h2, if_neg (by omega)]
      cases hv : c.vec with
      | none => rfl
      | some v => exact if_neg fun h4 => h3 v hv h4.1)⟩
  unfold ObeysHeap at h
  split at h
  · rename_i e _; rw [e]; exact ⟨key _ _ h.2.2.1, h.2.2.2.1⟩
  · rename_i e _; rw [e]; exact key _ _ h.2.1
  · rename_i e _; rw [e]; trivial
  · exact h.elim

/-! ### Examples -/

theorem lends_owned_heap {α : Type} (c : HeapCall α) (h : c.shared.ptr.buf < 2) (hv : ∀ v, c.vec = some v → v.buf < 2 ∧ v.cap = 16) : LendsHeap owned c :=
  ⟨h, fun b i hi => by
    have e : b = c.shared.ptr.buf := hi.1
    simp only [owned, e, if_pos h, Stack.read, true_and]; rfl, fun v hv' => by
    obtain ⟨h1, h2⟩ := hv v hv'
    refine ⟨h1, rfl, h1, h2.symm, fun b i hi => ?_, fun i _ it hi => ?_⟩
    · have e : b = v.buf := hi.1
      simp only [owned, e, if_pos h1, Stack.write, true_and]; rfl
    · have : owned.stack (owned.home v.buf) i = [⟨.unique, v.buf, none⟩] := if_pos h1
      rw [this] at hi
      rw [List.mem_singleton.1 hi]⟩

/-- Six bytes of the first allocation are encoded into a new `String`. -/
def newString : HeapCall Owned := .hexEncode (some .avx2) .lower ⟨⟨0, 2⟩, 6⟩ .string

/-- Nine bytes of the first allocation are encoded at the end of a vector that has the second: the 18 digits do not fit in its 16 bytes. -/
def movedVec : HeapCall RVec := .hexEncodeAppend 0 (some .avx2) .lower ⟨⟨0, 2⟩, 9⟩ ⟨1, 0, 16⟩

/-- Six bytes: the 12 digits fit. -/
def sameVec : HeapCall RVec := .hexEncodeAppend 5 (some .avx2) .lower ⟨⟨0, 2⟩, 6⟩ ⟨1, 0, 16⟩

/-- The first allocation is no hexadecimal text: the box is deallocated before `Err` is returned. -/
def notHex : HeapCall Owned := .hexDecode (some .avx2) ⟨⟨0, 0⟩, 16⟩ .vec

theorem vec_two : ∃ prev, IsVec twoMem ⟨1, 0, 16⟩ prev := ⟨[], by decide, rfl, rfl, by decide, nofun⟩

theorem runs_hex_encode : sender.Runs Dispatch.hex_encode (some .avx2) := (Dispatch.runs_first _ _ _ (by decide) (by decide) : Dispatch.Runs sender.build sender.cpu Dispatch.hex_encode _)

theorem runs_hex_decode : sender.Runs Dispatch.hex_decode (some .avx2) := (Dispatch.runs_first _ _ _ (by decide) (by decide) : Dispatch.Runs sender.build sender.cpu Dispatch.hex_decode _)

example : ObeysHeap sender.P owned newString ((newString.prog sender.P).run twoMem) :=
  have hP : 16 ≤ sender.P.isizeMax := by decide
  C87_call sender newString owned runs_hex_encode sound_owned (lends_owned_heap _ (by decide) nofun) ⟨reads_two 2 6 (by decide), by decide, Nat.le_trans (by decide) hP, nofun⟩

example : notHex.RunsOn sender ∧ Sound owned ∧ LendsHeap owned notHex ∧ (untagHeap owned notHex).Borrows sender.P owned.mem :=
  have hP : 16 ≤ sender.P.isizeMax := by decide
  ⟨runs_hex_decode, sound_owned, lends_owned_heap _ (by decide) nofun, reads_two 0 16 (by decide), by decide, Nat.le_trans (by decide) hP, nofun⟩

theorem borrows_vec : (untagHeap owned movedVec).Borrows sender.P twoMem ∧ (untagHeap owned sameVec).Borrows sender.P twoMem := by
  have hP : 16 ≤ sender.P.isizeMax := by decide
  refine ⟨⟨reads_two 2 9 (by decide), by decide, Nat.le_trans (by decide) hP, fun v hv => ?_⟩, ⟨reads_two 2 6 (by decide), by decide, Nat.le_trans (by decide) hP, fun v hv => ?_⟩⟩ <;>
  · cases hv; exact ⟨vec_two, by decide, hP⟩

theorem lends_vec : LendsHeap owned movedVec ∧ LendsHeap owned sameVec :=
  ⟨lends_owned_heap _ (by decide) fun v hv => by cases hv; decide, lends_owned_heap _ (by decide) fun v hv => by cases hv; decide⟩

example : ObeysHeap sender.P owned movedVec ((movedVec.prog sender.P).run twoMem) ∧ ObeysHeap sender.P owned sameVec ((sameVec.prog sender.P).run twoMem) :=
  ⟨C87_call sender movedVec owned runs_hex_encode sound_owned lends_vec.1 borrows_vec.1, C87_call sender sameVec owned runs_hex_encode sound_owned lends_vec.2 borrows_vec.2⟩

/-- The call returns `Ok`; the vector can be dropped, and its old allocation is gone. -/
example : ∃ r s' s'', movedVec.borrow sender.P owned = .ok r s' ∧ drop_vec r s' = .ok () s'' ∧ Freed s'' 1 := by
  obtain ⟨xs, hl, hx⟩ := reads_two 2 9 (by decide)
  have hP : 18 ≤ sender.P.isizeMax ∧ 18 ≤ sender.P.usizeMax / 2 := by decide
  have hL := Hex.hexEncode_length (AsciiCase.lower == .upper) xs
  have h := C87_call sender movedVec owned runs_hex_encode sound_owned lends_vec.1 borrows_vec.1
  obtain ⟨v, m, h61, -⟩ := (Hex.C61_encode_append sender.P 0 (some .avx2) .lower twoMem ⟨0, 2⟩ xs hx (by decide) (by omega) ⟨1, 0, 16⟩ [] ⟨by decide, rfl, rfl, by decide, nofun⟩ (by decide) (by decide)).1
    ⟨by omega, .inr (by dsimp only; omega)⟩
  rw [hl] at h61
  rw [show ((untagHeap owned movedVec).prog sender.P).run owned.mem = .ok v m from h61] at h
  unfold ObeysHeap at h
  split at h
  · rename_i r s' _ _ e _
    obtain ⟨s'', h1, -, -, h2, -⟩ := C87_drop sender movedVec owned runs_hex_encode sound_owned lends_vec.1 borrows_vec.1 r s' e
    exact ⟨r, s', s'', e, h1, h2 _ rfl⟩
  · rename_i e; cases e
  · rename_i e; cases e
  · exact h.elim

/-- Deallocating twice is undefined behaviour; so is deallocating with a wrong size, and reading what has been deallocated. -/
example : (drop_vec ⟨1, 0, 16⟩ owned).isUb = false ∧ ((do drop_vec ⟨1, 0, 16⟩; drop_vec ⟨1, 0, 16⟩ : BProg Unit) owned).isUb = true ∧ (drop_vec ⟨1, 0, 15⟩ owned).isUb = true ∧
    ((do drop_vec ⟨0, 0, 16⟩; let _ ← prog (loadBytes ⟨0, 2⟩ 1) : BProg Unit) owned).isUb = true := by decide

/-- Deallocating what has been lent with `&` is undefined behaviour. -/
example : (call (do
    let _ ← arg .shared ⟨0, 2⟩ 4
    drop_vec ⟨0, 0, 16⟩) owned).isUb = true := by decide

end Simd
