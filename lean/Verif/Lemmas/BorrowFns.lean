import Verif.Lemmas.BorrowFrame
import Verif.Lemmas.RenBase
import Verif.Lemmas.RenHex
import Verif.Lemmas.RenUnicode
/-
Every function with borrow stacks does what it does without them.
-/
namespace Simd

unseal Uses in
theorem Uses.run {α : Type} {L W : Nat → Prop} {R : α → Prop} {x : Prog α} (h : Uses L W R x) {m m' : Mem} {a : α} (hx : x.run m = .ok a m') : R a := by
  induction x generalizing m with
  | pure a => cases hx; exact h
  | load p n k ih =>
    simp only [Prog.run] at hx
    split at hx
    · exact ih _ (And.right h _) hx
    · cases hx
  | store p bs k ih =>
    simp only [Prog.run] at hx
    split at hx
    · exact ih (And.right h) hx
    · cases hx
  | chk p k ih =>
    simp only [Prog.run] at hx
    split at hx
    · exact ih h hx
    · cases hx
  | alloc n k ih => exact False.elim h
  | _ => cases hx

theorem Base64.decoded_length_le {src : Slice} {config : Base64.Config} : Uses (fun _ => True) (fun _ => True) (fun r => r.2 ≤ src.len) (Base64.decoded_length src config) := by
  have hd : Uses (fun _ => True) (fun _ => True) (fun n => n ≤ src.len) (Base64.data_length src config) := by
    unfold Base64.data_length
    split
    · exact (Uses.ensure _).seq fun _ => (Base64.uses_count_pad trivial).seq fun _ => Uses.ret (Nat.sub_le _ _)
    · exact Uses.ret (Nat.le_refl _)
    · split
      · exact (Base64.uses_count_pad trivial).seq fun _ => Uses.ret (Nat.sub_le _ _)
      · exact Uses.ret (Nat.le_refl _)
  unfold Base64.decoded_length
  split
  · exact Uses.ret (Nat.zero_le _)
  · refine hd.bind fun n hn => ?_
    split
    · exact Uses.ret (by dsimp only; omega)
    · exact Uses.err
    · exact Uses.ret (by dsimp only; omega)
    · exact Uses.ret (by dsimp only; omega)
    · exact Uses.ub

theorem Base32.decoded_length_le {src : Slice} {b : Bool} : Uses (fun _ => True) (fun _ => True) (fun r => r.2 ≤ src.len) (Base32.decoded_length src b) := by
  have hd : Uses (fun _ => True) (fun _ => True) (fun n => n ≤ src.len) (Base32.data_length src b) := by
    unfold Base32.data_length
    split
    · exact (Uses.ensure _).seq fun _ => (Uses.assert _).seq fun _ => (Uses.loadBytes trivial _).seq fun _ => Uses.ret (Nat.sub_le _ _)
    · exact Uses.ret (Nat.le_refl _)
  unfold Base32.decoded_length
  split
  · exact Uses.ret (Nat.zero_le _)
  · refine hd.bind fun n hn => ?_
    dsimp only
    have hx : Base32.DEC_EXTRA.getD (n % 8) 0 = 0xff ∨ n / 8 * 5 + Base32.DEC_EXTRA.getD (n % 8) 0 ≤ n := by
      have h8 : n % 8 < 8 := Nat.mod_lt _ (by decide)
      have : ∀ k, k < 8 → Base32.DEC_EXTRA.getD k 0 = 0xff ∨ Base32.DEC_EXTRA.getD k 0 ≤ k := by decide
      rcases this _ h8 with h | h
      · exact .inl h
      · exact .inr (by omega)
    unfold Simd.ensure
    split
    · rename_i h
      refine Uses.ret (R := fun r : Nat × Nat => r.2 ≤ src.len) ?_
      rcases hx with hx | hx
      · rw [hx] at h; simp at h
      · dsimp only; omega
    · exact Uses.err

end Simd

namespace Simd.Borrow
open Spec

variable {s : State} {p q P Q : Ptr} {n d : Nat}

/-- The results of functions that return slices of bytes. -/
abbrev RetB : State → Slice → Slice → Prop := Ret 1
theorem retB_ret (s : State) (a b : Slice) (h : RetB s a b) : RetB s.ret a b := Ret.ret h
theorem eq_ret {α : Type} (s : State) (a b : α) (h : (fun (_ : State) (a b : α) => a = b) s a b) : (fun (_ : State) (a b : α) => a = b) s.ret a b := h

namespace Base64

theorem decoded_length_sim2 (config : Simd.Base64.Config) (hs : Sound s) (hr : Readable s p n) (eP : place s p = P) (eQ : place s q = Q) (hq : q.buf < s.next) (ho : NoOverlap P n Q d)
    (hG : Good2 (fun p _ => Simd.Base64.decoded_length ⟨p, n⟩ config) P n Q d s.mem) :
    Sim (decoded_length ⟨p, n⟩ config s) ((Simd.Base64.decoded_length ⟨P, n⟩ config).run s.mem) (fun v v' s' => v = v' ∧ AfterCall s s' (G0 P n p.buf)) (fun s' => AfterCall s s' (G0 P n p.buf)) :=
  read_call2 (K := fun p => Simd.Base64.decoded_length ⟨p, n⟩ config) hs hr eP eQ hq ho hG (fun _ _ => Simd.Base64.ren_decoded_length ..) fun _ => Simd.Base64.uses_decoded_length (by rfl) _

theorem decoded_length_sim1 (config : Simd.Base64.Config) (hs : Sound s) (hr : Readable s p n) (eP : place s p = P)
    (hG : Good1 (fun p => Simd.Base64.decoded_length ⟨p, n⟩ config) P n s.mem) :
    Sim (decoded_length ⟨p, n⟩ config s) ((Simd.Base64.decoded_length ⟨P, n⟩ config).run s.mem) (fun v v' s' => v = v' ∧ AfterCall s s' (G0 P n p.buf)) (fun s' => AfterCall s s' (G0 P n p.buf)) :=
  read_call1 (K := fun p => Simd.Base64.decoded_length ⟨p, n⟩ config) hs hr eP hG (fun _ _ => Simd.Base64.ren_decoded_length ..) fun _ => Simd.Base64.uses_decoded_length (by rfl) _

theorem check_sim (i : Option Isa) (config : Simd.Base64.Config) (hs : Sound s) (hr : Readable s p n) (eP : place s p = P)
    (hG : Good1 (fun p => Simd.Base64.check i config ⟨p, n⟩) P n s.mem) :
    Sim (check i config ⟨p, n⟩ s) ((Simd.Base64.check i config ⟨P, n⟩).run s.mem) (fun v v' s' => v = v' ∧ AfterCall s s' (G0 P n p.buf)) (fun s' => AfterCall s s' (G0 P n p.buf)) := by
  refine check_call (R := fun _ a b => a = b) eq_ret hs hr eP fun s1 p1 hm hs1 hr1 _ hp1 eP1 => ?_
  rw [← hm] at hG
  refine Sim.bind (decoded_length_sim1 config hs1 hr1 eP1 (Good1.head (X := fun p => Simd.Base64.decoded_length ⟨p, n⟩ config) (K := fun p x => Simd.Base64.check_auto i p x.1 config) hG)) ?_
  rintro v _ s2 hrun ⟨rfl, h⟩
  have hG2 := Good1.next (X := fun p => Simd.Base64.decoded_length ⟨p, n⟩ config) (K := fun p x => Simd.Base64.check_auto i p x.1 config) hG (fun _ _ => Simd.Base64.ren_decoded_length ..) hrun
  subst eP1
  refine (check_tail (.inl rfl) (h.sound hs1) (G0_readable h hp1 hr1) (AfterCall.place h hp1) hG2 (fun _ _ => Simd.Base64.ren_check_auto ..) fun _ => Simd.Base64.uses_check_auto (by rfl) _ _ _).mono
    (fun _ _ _ h' => ⟨h'.1, h.trans h'.2⟩) fun _ h' => h.trans h'

theorem encode_sim (Pl : Plat) (i : Option Isa) (config : Simd.Base64.Config) (hs : Sound s) (hr : Readable s p n) (hm : Mutable s q d) (hq : q.buf < s.next) (eP : place s p = P) (eQ : place s q = Q)
    (ho : NoOverlap P n Q d) (hG : Good2 (fun p q => Simd.Base64.encode Pl i config ⟨p, n⟩ ⟨q, d⟩) P n Q d s.mem) :
    Sim (encode Pl i config ⟨p, n⟩ ⟨q, d⟩ s) ((Simd.Base64.encode Pl i config ⟨P, n⟩ ⟨Q, d⟩).run s.mem) (fun v v' s' => AfterCall s s' (G2 P n p.buf Q d q.buf) ∧ RetB s' v v')
      (fun s' => AfterCall s s' (G2 P n p.buf Q d q.buf)) := by
  refine copy_call retB_ret hs hr hm hq eP eQ ho fun s1 p1 hmem hs1 hr1 hm1 hq1 hp1 eP1 eQ1 => ?_
  rw [← hmem] at hG
  refine Sim.bind (Sim.liftO _) ?_
  rintro _ m _ hrun ⟨rfl, rfl, -⟩
  have hG2 := Good2.next (X := fun _ _ => liftO (Simd.Base64.encoded_length_unchecked Pl n config))
    (K := fun p q m => do ensure (d ≥ m); Simd.Base64.encode_auto i p n q config; return (⟨q, m⟩ : Slice)) hG ho (fun _ _ _ => Ren.liftO _) hrun
  refine Sim.bind (Sim.ensure _ (AfterCall.refl _ _)) ?_
  rintro _ _ _ hrun ⟨rfl, hd⟩
  have hG3 := Good2.next (X := fun _ _ => ensure (d ≥ m)) (K := fun p q _ => do Simd.Base64.encode_auto i p n q config; return (⟨q, m⟩ : Slice)) hG2 ho (fun _ _ _ => Ren.ensure _) hrun
  exact copy_tail (.inr rfl) (one_mul _).symm hs1 hr1 hm1 hq1 eP1 eQ1 ho (of_decide_eq_true hd) (Good2.head hG3) (fun _ _ _ => Simd.Base64.ren_encode_auto ..) fun _ _ => Simd.Base64.uses_encode_auto (by rfl) (by rfl) _ _ _

theorem decode_sim (i : Option Isa) (config : Simd.Base64.Config) (hs : Sound s) (hr : Readable s p n) (hm : Mutable s q d) (hq : q.buf < s.next) (eP : place s p = P) (eQ : place s q = Q)
    (ho : NoOverlap P n Q d) (hG : Good2 (fun p q => Simd.Base64.decode i config ⟨p, n⟩ ⟨q, d⟩) P n Q d s.mem) :
    Sim (decode i config ⟨p, n⟩ ⟨q, d⟩ s) ((Simd.Base64.decode i config ⟨P, n⟩ ⟨Q, d⟩).run s.mem) (fun v v' s' => AfterCall s s' (G2 P n p.buf Q d q.buf) ∧ RetB s' v v')
      (fun s' => AfterCall s s' (G2 P n p.buf Q d q.buf)) := by
  refine copy_call retB_ret hs hr hm hq eP eQ ho fun s1 p1 hmem hs1 hr1 hm1 hq1 hp1 eP1 eQ1 => ?_
  rw [← hmem] at hG
  refine Sim.bind ((decoded_length_sim2 config hs1 hr1 eP1 eQ1 hq1 ho (Good2.head (X := fun p _ => Simd.Base64.decoded_length ⟨p, n⟩ config)
    (K := fun p q x => do ensure (d ≥ x.2); Simd.Base64.decode_auto i p q x.1 config; return (⟨q, x.2⟩ : Slice)) hG)).mono (fun _ _ _ h => h) fun _ h => h.weaken G2_src) ?_
  rintro ⟨k, m⟩ _ s2 hrun ⟨rfl, h⟩
  have hG2 := Good2.next (X := fun p _ => Simd.Base64.decoded_length ⟨p, n⟩ config)
    (K := fun p q x => do ensure (d ≥ x.2); Simd.Base64.decode_auto i p q x.1 config; return (⟨q, x.2⟩ : Slice)) hG ho (fun _ _ _ => Simd.Base64.ren_decoded_length ..) hrun
  have h' : AfterCall s1 s2 (G2 P n p1.buf Q d q.buf) := h.weaken G2_src
  refine Sim.bind (Sim.ensure _ h') ?_
  rintro _ _ _ hrun ⟨rfl, hd⟩
  have hG3 := Good2.next (X := fun _ _ => ensure (d ≥ m)) (K := fun p q _ => do Simd.Base64.decode_auto i p q k config; return (⟨q, m⟩ : Slice)) hG2 ho (fun _ _ _ => Ren.ensure _) hrun
  subst eP1 eQ1
  exact (copy_tail (K := fun p q => Simd.Base64.decode_auto i p q k config) (.inl rfl) (one_mul _).symm (h.sound hs1) (G2_readable h' hp1 hr1) (G2_mutable ho h' hq1 hm1) (Nat.lt_of_lt_of_le hq1 h.next)
    (AfterCall.place h hp1) (AfterCall.place h hq1) ho (of_decide_eq_true hd) (Good2.head hG3) (fun _ _ _ => Simd.Base64.ren_decode_auto ..) fun _ _ => Simd.Base64.uses_decode_auto (by rfl) (by rfl) _ _ _).mono
    (fun _ _ _ h'' => ⟨h'.trans h''.1, h''.2⟩) fun _ h'' => h'.trans h''

theorem decode_inplace_sim (i : Option Isa) (config : Simd.Base64.Config) (hs : Sound s) (hm : Mutable s p n) (eP : place s p = P)
    (hG : Good1 (fun p => Simd.Base64.decode_inplace i config ⟨p, n⟩) P n s.mem) :
    Sim (decode_inplace i config ⟨p, n⟩ s) ((Simd.Base64.decode_inplace i config ⟨P, n⟩).run s.mem) (fun v v' s' => AfterCall s s' (G1 P n p.buf) ∧ RetB s' v v')
      (fun s' => AfterCall s s' (G1 P n p.buf)) := by
  refine inplace_call retB_ret hs hm eP fun s1 p1 hmem hs1 hm1 _ hp1 eP1 ht => ?_
  rw [← hmem] at hG
  refine Sim.bind2 (f := fun c => decoded_length ⟨c, n⟩ config) (inplace_read (R := Eq) hs1 eP1 ht fun s2 c hm2 hs2 hr2 hc2 ec2 => ?_) ?_
  · exact decoded_length_sim1 config hs2 hr2 ec2 (hm2 ▸ Good1.head (X := fun p => Simd.Base64.decoded_length ⟨p, n⟩ config)
      (K := fun p x => do Simd.Base64.decode_auto i p p x.1 config; return (⟨p, x.2⟩ : Slice)) hG)
  rintro ⟨k, m⟩ _ s2 hrun ⟨rfl, h⟩
  have hG2 := Good1.next (X := fun p => Simd.Base64.decoded_length ⟨p, n⟩ config)
    (K := fun p x => do Simd.Base64.decode_auto i p p x.1 config; return (⟨p, x.2⟩ : Slice)) hG (fun _ _ => Simd.Base64.ren_decoded_length ..) hrun
  have hmn : m ≤ n := Simd.Base64.decoded_length_le.run hrun
  subst eP1
  exact (inplace_tail (K := fun p => Simd.Base64.decode_auto i p p k config) (one_mul _).symm (h.sound hs1) (G1_mutable h hp1 hm1) (AfterCall.place h hp1) hmn (Good1.head hG2)
    (fun _ _ => Simd.Base64.ren_decode_auto ..) fun _ => Simd.Base64.uses_decode_auto (by rfl) (by rfl) _ _ _).mono (fun _ _ _ h'' => ⟨h.trans h''.1, h''.2⟩) fun _ h'' => h.trans h''

end Base64

end Simd.Borrow
