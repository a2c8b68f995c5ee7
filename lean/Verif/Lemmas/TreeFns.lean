import Verif.Lemmas.TreeKern
import Verif.Lemmas.BorrowFns
/-
Every function with borrow trees does what it does without them.
-/
namespace Simd.Tree
open Spec
open Borrow (Good1 Good2 Good1.head Good1.next Good2.head Good2.next)

variable {s : State} {p q P Q : Ptr} {n d : Nat}

/-- The results of functions that return slices of bytes. -/
abbrev RetB : State → Nat → State → Slice → Slice → Prop := Ret 1

namespace Base64

theorem decoded_length_sim2 (config : Simd.Base64.Config) (hs : Sound s) (hr : Readable s p n) (eP : place s p = P) (eQ : place s q = Q) (hq : q.buf < s.next) (ho : NoOverlap P n Q d)
    (hG : Good2 (fun p _ => Simd.Base64.decoded_length ⟨p, n⟩ config) P n Q d s.mem) :
    Sim (decoded_length ⟨p, n⟩ config s) ((Simd.Base64.decoded_length ⟨P, n⟩ config).run s.mem) (fun v v' s' => v = v' ∧ AfterCall s s' (G0 P n p.buf)) (fun s' => AfterCall s s' (G0 P n p.buf)) :=
  read_call2 (K := fun p => Simd.Base64.decoded_length ⟨p, n⟩ config) hs hr eP eQ hq ho hG (fun _ _ => Simd.Base64.ren_decoded_length ..) fun _ => Simd.Base64.uses_decoded_length (by rfl) _

theorem decoded_length_sim1 (config : Simd.Base64.Config) (hs : Sound s) (hr : Readable s p n) (eP : place s p = P)
    (hG : Good1 (fun p => Simd.Base64.decoded_length ⟨p, n⟩ config) P n s.mem) :
    Sim (decoded_length ⟨p, n⟩ config s) ((Simd.Base64.decoded_length ⟨P, n⟩ config).run s.mem) (fun v v' s' => v = v' ∧ AfterCall s s' (G0 P n p.buf)) (fun s' => AfterCall s s' (G0 P n p.buf)) :=
  read_call1 (K := fun p => Simd.Base64.decoded_length ⟨p, n⟩ config) hs hr eP hG (fun _ _ => Simd.Base64.ren_decoded_length ..) fun _ => Simd.Base64.uses_decoded_length (by rfl) _

theorem check_sim (i : Option Isa) (config : Simd.Base64.Config) (hs : Sound s) (hr : Readable s p n) (eP : place s p = P)
    (hG : Good1 (fun p => Simd.Base64.check i config ⟨p, n⟩) P n s.mem) :
    Sim (check i config ⟨p, n⟩ s) ((Simd.Base64.check i config ⟨P, n⟩).run s.mem) (fun v v' s' => v = v' ∧ AfterCall s s' (G0 P n p.buf)) (fun s' => AfterCall s s' (G0 P n p.buf)) := by
  refine check_call (R := Eq) hs hr eP fun s1 p1 hm hs1 hr1 _ hp1 eP1 => ?_
  rw [← hm] at hG
  refine Sim.bind (decoded_length_sim1 config hs1 hr1 eP1 (Good1.head (X := fun p => Simd.Base64.decoded_length ⟨p, n⟩ config) (K := fun p x => Simd.Base64.check_auto i p x.1 config) hG)) ?_
  rintro v _ s2 hrun ⟨rfl, h⟩
  have hG2 := Good1.next (X := fun p => Simd.Base64.decoded_length ⟨p, n⟩ config) (K := fun p x => Simd.Base64.check_auto i p x.1 config) hG (fun _ _ => Simd.Base64.ren_decoded_length ..) hrun
  subst eP1
  refine (check_tail (.inl rfl) (h.sound) (G0_readable h hp1 hr1) (AfterCall.place h hp1) hG2 (fun _ _ => Simd.Base64.ren_check_auto ..) fun _ => Simd.Base64.uses_check_auto (by rfl) _ _ _).mono
    (fun _ _ _ h' => ⟨h'.1, h.trans h'.2⟩) fun _ h' => h.trans h'

theorem encode_sim (Pl : Plat) (i : Option Isa) (config : Simd.Base64.Config) (hs : Sound s) (hr : Readable s p n) (hm : Mutable s q d) (hq : q.buf < s.next) (eP : place s p = P) (eQ : place s q = Q)
    (ho : NoOverlap P n Q d) (hG : Good2 (fun p q => Simd.Base64.encode Pl i config ⟨p, n⟩ ⟨q, d⟩) P n Q d s.mem) :
    Sim (encode Pl i config ⟨p, n⟩ ⟨q, d⟩ s) ((Simd.Base64.encode Pl i config ⟨P, n⟩ ⟨Q, d⟩).run s.mem) (fun v v' s' => AfterCall s s' (G2 P n p.buf Q d q.buf) ∧ RetB s q.buf s' v v')
      (fun s' => AfterCall s s' (G2 P n p.buf Q d q.buf)) := by
  refine copy_call (Ret.res 1) hs hr hm hq eP eQ ho fun s1 p1 hmem hs1 hr1 hm1 hq1 hp1 eP1 eQ1 => ?_
  rw [← hmem] at hG
  refine Sim.bind (Sim.liftO _) ?_
  rintro _ m _ hrun ⟨rfl, rfl, -⟩
  have hG2 := Good2.next (X := fun _ _ => liftO (Simd.Base64.encoded_length_unchecked Pl n config))
    (K := fun p q m => do ensure (d ≥ m); Simd.Base64.encode_auto i p n q config; return (⟨q, m⟩ : Slice)) hG ho (fun _ _ _ => Ren.liftO _) hrun
  refine Sim.bind (Sim.ensure _ (AfterCall.refl hs1 _)) ?_
  rintro _ _ _ hrun ⟨rfl, hd⟩
  have hG3 := Good2.next (X := fun _ _ => ensure (d ≥ m)) (K := fun p q _ => do Simd.Base64.encode_auto i p n q config; return (⟨q, m⟩ : Slice)) hG2 ho (fun _ _ _ => Ren.ensure _) hrun
  exact copy_tail (.inr rfl) (one_mul _).symm hs1 hr1 hm1 hq1 eP1 eQ1 ho (of_decide_eq_true hd) (Good2.head hG3) (fun _ _ _ => Simd.Base64.ren_encode_auto ..) fun _ _ => Simd.Base64.uses_encode_auto (by rfl) (by rfl) _ _ _

theorem decode_sim (i : Option Isa) (config : Simd.Base64.Config) (hs : Sound s) (hr : Readable s p n) (hm : Mutable s q d) (hq : q.buf < s.next) (eP : place s p = P) (eQ : place s q = Q)
    (ho : NoOverlap P n Q d) (hG : Good2 (fun p q => Simd.Base64.decode i config ⟨p, n⟩ ⟨q, d⟩) P n Q d s.mem) :
    Sim (decode i config ⟨p, n⟩ ⟨q, d⟩ s) ((Simd.Base64.decode i config ⟨P, n⟩ ⟨Q, d⟩).run s.mem) (fun v v' s' => AfterCall s s' (G2 P n p.buf Q d q.buf) ∧ RetB s q.buf s' v v')
      (fun s' => AfterCall s s' (G2 P n p.buf Q d q.buf)) := by
  refine copy_call (Ret.res 1) hs hr hm hq eP eQ ho fun s1 p1 hmem hs1 hr1 hm1 hq1 hp1 eP1 eQ1 => ?_
  rw [← hmem] at hG
  refine Sim.bind ((decoded_length_sim2 config hs1 hr1 eP1 eQ1 hq1 ho (Good2.head (X := fun p _ => Simd.Base64.decoded_length ⟨p, n⟩ config)
    (K := fun p q x => do ensure (d ≥ x.2); Simd.Base64.decode_auto i p q x.1 config; return (⟨q, x.2⟩ : Slice)) hG)).mono (fun _ _ _ h => h) fun _ h => h.weaken G2_src) ?_
  rintro ⟨k, m⟩ _ s2 hrun ⟨rfl, h⟩
  have hG2 := Good2.next (X := fun p _ => Simd.Base64.decoded_length ⟨p, n⟩ config)
    (K := fun p q x => do ensure (d ≥ x.2); Simd.Base64.decode_auto i p q x.1 config; return (⟨q, x.2⟩ : Slice)) hG ho (fun _ _ _ => Simd.Base64.ren_decoded_length ..) hrun
  have h' : AfterCall s1 s2 (G2 P n p1.buf Q d q.buf) := h.weaken G2_src
  refine Sim.bind (Sim.ensure _ h') ?_
  rintro _ _ _ hrun ⟨rfl, hd⟩
  have hG3 := Good2.next (X := fun _ _ => ensure (d ≥ m)) (K := fun p q _ => do Simd.Base64.decode_auto i p q k config; return (⟨q, m⟩ : Slice)) hG2 ho (fun _ _ _ => Ren.ensure _) hrun
  subst eP1 eQ1
  exact (copy_tail (K := fun p q => Simd.Base64.decode_auto i p q k config) (.inl rfl) (one_mul _).symm (h.sound) (G2_readable h' hp1 hr1) (G2_mutable ho h' hq1 hm1) (Nat.lt_of_lt_of_le hq1 h.next)
    (AfterCall.place h hp1) (AfterCall.place h hq1) ho (of_decide_eq_true hd) (Good2.head hG3) (fun _ _ _ => Simd.Base64.ren_decode_auto ..) fun _ _ => Simd.Base64.uses_decode_auto (by rfl) (by rfl) _ _ _).mono
    (fun _ _ _ h'' => ⟨h'.trans h''.1, h''.2.after h'⟩) fun _ h'' => h'.trans h''

theorem decode_inplace_sim (i : Option Isa) (config : Simd.Base64.Config) (hs : Sound s) (hm : Mutable s p n) (eP : place s p = P)
    (hG : Good1 (fun p => Simd.Base64.decode_inplace i config ⟨p, n⟩) P n s.mem) :
    Sim (decode_inplace i config ⟨p, n⟩ s) ((Simd.Base64.decode_inplace i config ⟨P, n⟩).run s.mem) (fun v v' s' => AfterCall s s' (G1 P n p.buf) ∧ RetB s p.buf s' v v')
      (fun s' => AfterCall s s' (G1 P n p.buf)) := by
  refine inplace_call (Ret.res 1) hs hm eP fun s1 p1 hmem hs1 hm1 _ hp1 eP1 ht => ?_
  rw [← hmem] at hG
  refine Sim.bind2 (f := fun c => decoded_length ⟨c, n⟩ config) (inplace_read (R := Eq) hs1 eP1 ht fun s2 c hm2 hs2 hr2 hc2 ec2 => ?_) ?_
  · exact decoded_length_sim1 config hs2 hr2 ec2 (hm2 ▸ Good1.head (X := fun p => Simd.Base64.decoded_length ⟨p, n⟩ config)
      (K := fun p x => do Simd.Base64.decode_auto i p p x.1 config; return (⟨p, x.2⟩ : Slice)) hG)
  rintro ⟨k, m⟩ _ s2 hrun ⟨rfl, h⟩
  have hG2 := Good1.next (X := fun p => Simd.Base64.decoded_length ⟨p, n⟩ config)
    (K := fun p x => do Simd.Base64.decode_auto i p p x.1 config; return (⟨p, x.2⟩ : Slice)) hG (fun _ _ => Simd.Base64.ren_decoded_length ..) hrun
  have hmn : m ≤ n := Simd.Base64.decoded_length_le.run hrun
  subst eP1
  exact (inplace_tail (K := fun p => Simd.Base64.decode_auto i p p k config) (one_mul _).symm (h.sound) (G1_mutable h hp1 hm1) (AfterCall.place h hp1) hmn (Good1.head hG2)
    (fun _ _ => Simd.Base64.ren_decode_auto ..) fun _ => Simd.Base64.uses_decode_auto (by rfl) (by rfl) _ _ _).mono (fun _ _ _ h'' => ⟨h.trans h''.1, h''.2.after h⟩) fun _ h'' => h.trans h''

end Base64

end Simd.Tree
