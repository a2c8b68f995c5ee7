import Verif.Lemmas.TreeFns
/-
The functions of base32-simd, hex-simd and unicode-simd and the fixed formats of uuid-simd with borrow trees.
-/
namespace Simd.Tree
open Spec
open Borrow (Good1 Good2 Good1.head Good1.next Good2.head Good2.next)

variable {s : State} {p q P Q : Ptr} {n d : Nat}

namespace Base32

theorem decoded_length_sim2 (pad : Bool) (hs : Sound s) (hr : Readable s p n) (eP : place s p = P) (eQ : place s q = Q) (hq : q.buf < s.next) (ho : NoOverlap P n Q d)
    (hG : Good2 (fun p _ => Simd.Base32.decoded_length ⟨p, n⟩ pad) P n Q d s.mem) :
    Sim (decoded_length ⟨p, n⟩ pad s) ((Simd.Base32.decoded_length ⟨P, n⟩ pad).run s.mem) (fun v v' s' => v = v' ∧ AfterCall s s' (G0 P n p.buf)) (fun s' => AfterCall s s' (G0 P n p.buf)) :=
  read_call2 (K := fun p => Simd.Base32.decoded_length ⟨p, n⟩ pad) hs hr eP eQ hq ho hG (fun _ _ => Simd.Base32.ren_decoded_length ..) fun _ => Simd.Base32.uses_decoded_length (by rfl) _

theorem decoded_length_sim1 (pad : Bool) (hs : Sound s) (hr : Readable s p n) (eP : place s p = P)
    (hG : Good1 (fun p => Simd.Base32.decoded_length ⟨p, n⟩ pad) P n s.mem) :
    Sim (decoded_length ⟨p, n⟩ pad s) ((Simd.Base32.decoded_length ⟨P, n⟩ pad).run s.mem) (fun v v' s' => v = v' ∧ AfterCall s s' (G0 P n p.buf)) (fun s' => AfterCall s s' (G0 P n p.buf)) :=
  read_call1 (K := fun p => Simd.Base32.decoded_length ⟨p, n⟩ pad) hs hr eP hG (fun _ _ => Simd.Base32.ren_decoded_length ..) fun _ => Simd.Base32.uses_decoded_length (by rfl) _

theorem check_sim (i : Option Isa) (config : Simd.Base32.Config) (hs : Sound s) (hr : Readable s p n) (eP : place s p = P)
    (hG : Good1 (fun p => Simd.Base32.check i config ⟨p, n⟩) P n s.mem) :
    Sim (check i config ⟨p, n⟩ s) ((Simd.Base32.check i config ⟨P, n⟩).run s.mem) (fun v v' s' => v = v' ∧ AfterCall s s' (G0 P n p.buf)) (fun s' => AfterCall s s' (G0 P n p.buf)) := by
  refine check_call (R := Eq) hs hr eP fun s1 p1 hm hs1 hr1 _ hp1 eP1 => ?_
  rw [← hm] at hG
  refine Sim.bind (decoded_length_sim1 config.padding hs1 hr1 eP1 (Good1.head (X := fun p => Simd.Base32.decoded_length ⟨p, n⟩ config.padding) (K := fun p x => Simd.Base32.check_auto i p x.1 config.kind) hG)) ?_
  rintro v _ s2 hrun ⟨rfl, h⟩
  have hG2 := Good1.next (X := fun p => Simd.Base32.decoded_length ⟨p, n⟩ config.padding) (K := fun p x => Simd.Base32.check_auto i p x.1 config.kind) hG (fun _ _ => Simd.Base32.ren_decoded_length ..) hrun
  subst eP1
  refine (check_tail (.inl rfl) (h.sound) (G0_readable h hp1 hr1) (AfterCall.place h hp1) hG2 (fun _ _ => Simd.Base32.ren_check_auto ..) fun _ => Simd.Base32.uses_check_auto (by rfl) _ _ _).mono
    (fun _ _ _ h' => ⟨h'.1, h.trans h'.2⟩) fun _ h' => h.trans h'

theorem encode_sim (Pl : Plat) (w : Bool) (i : Option Isa) (config : Simd.Base32.Config) (hs : Sound s) (hr : Readable s p n) (hm : Mutable s q d) (hq : q.buf < s.next) (eP : place s p = P) (eQ : place s q = Q)
    (ho : NoOverlap P n Q d) (hG : Good2 (fun p q => Simd.Base32.encode Pl w i config ⟨p, n⟩ ⟨q, d⟩) P n Q d s.mem) :
    Sim (encode Pl w i config ⟨p, n⟩ ⟨q, d⟩ s) ((Simd.Base32.encode Pl w i config ⟨P, n⟩ ⟨Q, d⟩).run s.mem) (fun v v' s' => AfterCall s s' (G2 P n p.buf Q d q.buf) ∧ RetB s q.buf s' v v')
      (fun s' => AfterCall s s' (G2 P n p.buf Q d q.buf)) := by
  refine copy_call (Ret.res 1) hs hr hm hq eP eQ ho fun s1 p1 hmem hs1 hr1 hm1 hq1 hp1 eP1 eQ1 => ?_
  rw [← hmem] at hG
  refine Sim.bind (Sim.liftO _) ?_
  rintro _ m _ hrun ⟨rfl, rfl, -⟩
  have hG2 := Good2.next (X := fun _ _ => liftO (Simd.Base32.encoded_length_unchecked Pl n config.padding))
    (K := fun p q m => do ensure (d ≥ m); Simd.Base32.encode_auto w i p n q config.kind config.padding; return (⟨q, m⟩ : Slice)) hG ho (fun _ _ _ => Ren.liftO _) hrun
  refine Sim.bind (Sim.ensure _ (AfterCall.refl hs1 _)) ?_
  rintro _ _ _ hrun ⟨rfl, hd⟩
  have hG3 := Good2.next (X := fun _ _ => ensure (d ≥ m)) (K := fun p q _ => do Simd.Base32.encode_auto w i p n q config.kind config.padding; return (⟨q, m⟩ : Slice)) hG2 ho (fun _ _ _ => Ren.ensure _) hrun
  exact copy_tail (.inr rfl) (one_mul _).symm hs1 hr1 hm1 hq1 eP1 eQ1 ho (of_decide_eq_true hd) (Good2.head hG3) (fun _ _ _ => Simd.Base32.ren_encode_auto ..) fun _ _ => Simd.Base32.uses_encode_auto (by rfl) (by rfl) _ _ _ _ _

theorem decode_sim (w : Bool) (i : Option Isa) (config : Simd.Base32.Config) (hs : Sound s) (hr : Readable s p n) (hm : Mutable s q d) (hq : q.buf < s.next) (eP : place s p = P) (eQ : place s q = Q)
    (ho : NoOverlap P n Q d) (hG : Good2 (fun p q => Simd.Base32.decode w i config ⟨p, n⟩ ⟨q, d⟩) P n Q d s.mem) :
    Sim (decode w i config ⟨p, n⟩ ⟨q, d⟩ s) ((Simd.Base32.decode w i config ⟨P, n⟩ ⟨Q, d⟩).run s.mem) (fun v v' s' => AfterCall s s' (G2 P n p.buf Q d q.buf) ∧ RetB s q.buf s' v v')
      (fun s' => AfterCall s s' (G2 P n p.buf Q d q.buf)) := by
  refine copy_call (Ret.res 1) hs hr hm hq eP eQ ho fun s1 p1 hmem hs1 hr1 hm1 hq1 hp1 eP1 eQ1 => ?_
  rw [← hmem] at hG
  refine Sim.bind ((decoded_length_sim2 config.padding hs1 hr1 eP1 eQ1 hq1 ho (Good2.head (X := fun p _ => Simd.Base32.decoded_length ⟨p, n⟩ config.padding)
    (K := fun p q x => do ensure (d ≥ x.2); Simd.Base32.decode_auto w i p x.1 q config.kind; return (⟨q, x.2⟩ : Slice)) hG)).mono (fun _ _ _ h => h) fun _ h => h.weaken G2_src) ?_
  rintro ⟨k, m⟩ _ s2 hrun ⟨rfl, h⟩
  have hG2 := Good2.next (X := fun p _ => Simd.Base32.decoded_length ⟨p, n⟩ config.padding)
    (K := fun p q x => do ensure (d ≥ x.2); Simd.Base32.decode_auto w i p x.1 q config.kind; return (⟨q, x.2⟩ : Slice)) hG ho (fun _ _ _ => Simd.Base32.ren_decoded_length ..) hrun
  have h' : AfterCall s1 s2 (G2 P n p1.buf Q d q.buf) := h.weaken G2_src
  refine Sim.bind (Sim.ensure _ h') ?_
  rintro _ _ _ hrun ⟨rfl, hd⟩
  have hG3 := Good2.next (X := fun _ _ => ensure (d ≥ m)) (K := fun p q _ => do Simd.Base32.decode_auto w i p k q config.kind; return (⟨q, m⟩ : Slice)) hG2 ho (fun _ _ _ => Ren.ensure _) hrun
  subst eP1 eQ1
  exact (copy_tail (K := fun p q => Simd.Base32.decode_auto w i p k q config.kind) (.inl rfl) (one_mul _).symm (h.sound) (G2_readable h' hp1 hr1) (G2_mutable ho h' hq1 hm1) (Nat.lt_of_lt_of_le hq1 h.next)
    (AfterCall.place h hp1) (AfterCall.place h hq1) ho (of_decide_eq_true hd) (Good2.head hG3) (fun _ _ _ => Simd.Base32.ren_decode_auto ..) fun _ _ => Simd.Base32.uses_decode_auto (by rfl) (by rfl) _ _ _ _).mono
    (fun _ _ _ h'' => ⟨h'.trans h''.1, h''.2.after h'⟩) fun _ h'' => h'.trans h''

theorem decode_inplace_sim (w : Bool) (i : Option Isa) (config : Simd.Base32.Config) (hs : Sound s) (hm : Mutable s p n) (eP : place s p = P)
    (hG : Good1 (fun p => Simd.Base32.decode_inplace w i config ⟨p, n⟩) P n s.mem) :
    Sim (decode_inplace w i config ⟨p, n⟩ s) ((Simd.Base32.decode_inplace w i config ⟨P, n⟩).run s.mem) (fun v v' s' => AfterCall s s' (G1 P n p.buf) ∧ RetB s p.buf s' v v')
      (fun s' => AfterCall s s' (G1 P n p.buf)) := by
  refine inplace_call (Ret.res 1) hs hm eP fun s1 p1 hmem hs1 hm1 _ hp1 eP1 ht => ?_
  rw [← hmem] at hG
  refine Sim.bind2 (f := fun c => decoded_length ⟨c, n⟩ config.padding) (inplace_read (R := Eq) hs1 eP1 ht fun s2 c hm2 hs2 hr2 hc2 ec2 => ?_) ?_
  · exact decoded_length_sim1 config.padding hs2 hr2 ec2 (hm2 ▸ Good1.head (X := fun p => Simd.Base32.decoded_length ⟨p, n⟩ config.padding)
      (K := fun p x => do Simd.Base32.decode_auto w i p x.1 p config.kind; return (⟨p, x.2⟩ : Slice)) hG)
  rintro ⟨k, m⟩ _ s2 hrun ⟨rfl, h⟩
  have hG2 := Good1.next (X := fun p => Simd.Base32.decoded_length ⟨p, n⟩ config.padding)
    (K := fun p x => do Simd.Base32.decode_auto w i p x.1 p config.kind; return (⟨p, x.2⟩ : Slice)) hG (fun _ _ => Simd.Base32.ren_decoded_length ..) hrun
  have hmn : m ≤ n := Simd.Base32.decoded_length_le.run hrun
  subst eP1
  exact (inplace_tail (K := fun p => Simd.Base32.decode_auto w i p k p config.kind) (one_mul _).symm (h.sound) (G1_mutable h hp1 hm1) (AfterCall.place h hp1) hmn (Good1.head hG2)
    (fun _ _ => Simd.Base32.ren_decode_auto ..) fun _ => Simd.Base32.uses_decode_auto (by rfl) (by rfl) _ _ _ _).mono (fun _ _ _ h'' => ⟨h.trans h''.1, h''.2.after h⟩) fun _ h'' => h.trans h''

end Base32

namespace Hex

theorem check_sim (i : Option Isa) (hs : Sound s) (hr : Readable s p n) (eP : place s p = P) (hG : Good1 (fun p => Simd.Hex.check i ⟨p, n⟩) P n s.mem) :
    Sim (check i ⟨p, n⟩ s) ((Simd.Hex.check i ⟨P, n⟩).run s.mem) (fun v v' s' => v = v' ∧ AfterCall s s' (G0 P n p.buf)) (fun s' => AfterCall s s' (G0 P n p.buf)) := by
  refine check_call (R := Eq) hs hr eP fun s1 p1 hm hs1 hr1 _ hp1 eP1 => ?_
  rw [← hm] at hG
  exact check_tail (.inr rfl) hs1 hr1 eP1 hG (fun _ _ => Simd.Hex.ren_check_auto ..) fun _ => Simd.Hex.uses_check_auto (by rfl) _ _

theorem encode_sim (Pl : Plat) (i : Option Isa) (c : AsciiCase) (hs : Sound s) (hr : Readable s p n) (hm : Mutable s q d) (hq : q.buf < s.next) (eP : place s p = P) (eQ : place s q = Q)
    (ho : NoOverlap P n Q d) (hG : Good2 (fun p q => Simd.Hex.encode Pl i ⟨p, n⟩ ⟨q, d⟩ c) P n Q d s.mem) :
    Sim (encode Pl i ⟨p, n⟩ ⟨q, d⟩ c s) ((Simd.Hex.encode Pl i ⟨P, n⟩ ⟨Q, d⟩ c).run s.mem) (fun v v' s' => AfterCall s s' (G2 P n p.buf Q d q.buf) ∧ RetB s q.buf s' v v')
      (fun s' => AfterCall s s' (G2 P n p.buf Q d q.buf)) := by
  refine copy_call (Ret.res 1) hs hr hm hq eP eQ ho fun s1 p1 hmem hs1 hr1 hm1 hq1 hp1 eP1 eQ1 => ?_
  rw [← hmem] at hG
  refine Sim.bind (Sim.ensure _ (AfterCall.refl hs1 _)) ?_
  rintro _ _ _ hrun ⟨rfl, hd⟩
  have hG2 := Good2.next (X := fun _ _ => ensure (d / 2 ≥ n)) (K := fun p q _ => do Simd.Hex.encode_auto i p n q c; return (⟨q, ← liftO (Pl.mulU n 2)⟩ : Slice)) hG ho (fun _ _ _ => Ren.ensure _) hrun
  refine Sim.bind2 (f := fun r => prog (Simd.Hex.encode_auto i r n q c)) (copy_kern (K := fun p q => Simd.Hex.encode_auto i p n q c) (.inr rfl) hs1 hr1 hm1 hq1 eP1 eQ1 ho (Good2.head hG2)
    (fun _ _ _ => Simd.Hex.ren_encode_auto ..) fun _ _ => Simd.Hex.uses_encode_auto (by rfl) (by rfl) _ _ _) ?_
  rintro _ _ s2 - ⟨-, h⟩
  refine Sim.bind (Sim.liftO _) ?_
  rintro _ m _ hrun ⟨rfl, rfl, hm2⟩
  have hd : d / 2 ≥ n := of_decide_eq_true hd
  have hmd : m ≤ d := by
    unfold Plat.mulU at hm2
    split at hm2
    · cases hm2
      show n * 2 ≤ d
      omega
    · cases hm2
  subst eP1 eQ1
  exact (copy_end (E := fun _ => False) (one_mul _).symm h.sound ((G2_mutable ho h hq1 hm1).mono hmd) (AfterCall.place h hq1)).mono (fun r r' s' h' => ⟨h.push h'.1 (tag2 hp1 hq1) (none_or (G2_dst ho hmd)), h'.2.2.after h⟩) fun _ h => h.elim

theorem decode_sim (i : Option Isa) (hs : Sound s) (hr : Readable s p n) (hm : Mutable s q d) (hq : q.buf < s.next) (eP : place s p = P) (eQ : place s q = Q)
    (ho : NoOverlap P n Q d) (hG : Good2 (fun p q => Simd.Hex.decode i ⟨p, n⟩ ⟨q, d⟩) P n Q d s.mem) :
    Sim (decode i ⟨p, n⟩ ⟨q, d⟩ s) ((Simd.Hex.decode i ⟨P, n⟩ ⟨Q, d⟩).run s.mem) (fun v v' s' => AfterCall s s' (G2 P n p.buf Q d q.buf) ∧ RetB s q.buf s' v v')
      (fun s' => AfterCall s s' (G2 P n p.buf Q d q.buf)) := by
  refine copy_call (Ret.res 1) hs hr hm hq eP eQ ho fun s1 p1 hmem hs1 hr1 hm1 hq1 hp1 eP1 eQ1 => ?_
  rw [← hmem] at hG
  refine Sim.bind (Sim.ensure _ (AfterCall.refl hs1 _)) ?_
  rintro _ _ _ hrun ⟨rfl, hd⟩
  have hG2 := Good2.next (X := fun _ _ => ensure (n % 2 == 0 && d ≥ n / 2)) (K := fun p q _ => do Simd.Hex.decode_auto i p n q; return (⟨q, n / 2⟩ : Slice)) hG ho (fun _ _ _ => Ren.ensure _) hrun
  have hmd : n / 2 ≤ d := by
    have := (Bool.and_eq_true _ _ ▸ hd).2
    exact of_decide_eq_true this
  exact copy_tail (K := fun p q => Simd.Hex.decode_auto i p n q) (.inl rfl) (one_mul _).symm hs1 hr1 hm1 hq1 eP1 eQ1 ho hmd (Good2.head hG2) (fun _ _ _ => Simd.Hex.ren_decode_auto ..)
    fun _ _ => Simd.Hex.uses_decode_auto (by rfl) (by rfl) _ _

theorem decode_inplace_sim (i : Option Isa) (hs : Sound s) (hm : Mutable s p n) (eP : place s p = P) (hG : Good1 (fun p => Simd.Hex.decode_inplace i ⟨p, n⟩) P n s.mem) :
    Sim (decode_inplace i ⟨p, n⟩ s) ((Simd.Hex.decode_inplace i ⟨P, n⟩).run s.mem) (fun v v' s' => AfterCall s s' (G1 P n p.buf) ∧ RetB s p.buf s' v v')
      (fun s' => AfterCall s s' (G1 P n p.buf)) := by
  refine inplace_call (Ret.res 1) hs hm eP fun s1 p1 hmem hs1 hm1 _ hp1 eP1 ht => ?_
  rw [← hmem] at hG
  refine Sim.bind (Sim.ensure _ (AfterCall.refl hs1 _)) ?_
  rintro _ _ _ hrun ⟨rfl, hd⟩
  have hG2 := Good1.next (X := fun _ => ensure (n % 2 == 0)) (K := fun p _ => do Simd.Hex.decode_auto i p n p; return (⟨p, n / 2⟩ : Slice)) hG (fun _ _ => Ren.ensure _) hrun
  exact inplace_tail (K := fun p => Simd.Hex.decode_auto i p n p) (one_mul _).symm hs1 hm1 eP1 (Nat.div_le_self _ _) (Good1.head hG2) (fun _ _ => Simd.Hex.ren_decode_auto ..)
    fun _ => Simd.Hex.uses_decode_auto (by rfl) (by rfl) _ _

end Hex

namespace Unicode

theorem is_ascii_sim (x64 : Bool) (i : Option Isa) (hs : Sound s) (hr : Readable s p n) (eP : place s p = P) (hG : Good1 (fun p => Simd.Unicode.is_ascii x64 i ⟨p, n⟩) P n s.mem) :
    Sim (is_ascii x64 i ⟨p, n⟩ s) ((Simd.Unicode.is_ascii x64 i ⟨P, n⟩).run s.mem) (fun v v' s' => v = v' ∧ AfterCall s s' (G0 P n p.buf)) (fun s' => AfterCall s s' (G0 P n p.buf)) := by
  refine check_call (R := Eq) hs hr eP fun s1 p1 hm hs1 hr1 _ hp1 eP1 => ?_
  rw [← hm] at hG
  exact check_tail (K := fun p => Simd.Unicode.is_ascii x64 i ⟨p, n⟩) (.inr rfl) hs1 hr1 eP1 hG (fun _ _ => Simd.Unicode.ren_is_ascii ..) fun a => Simd.Unicode.uses_is_ascii (d := ⟨a, n⟩) (by rfl) _ _

theorem is_utf32le_sim (i : Option Isa) (hs : Sound s) (hr : Readable s p (4 * n)) (eP : place s p = P) (hG : Good1 (fun p => Simd.Unicode.is_utf32le i ⟨p, n⟩) P (4 * n) s.mem) :
    Sim (is_utf32le i ⟨p, n⟩ s) ((Simd.Unicode.is_utf32le i ⟨P, n⟩).run s.mem) (fun v v' s' => v = v' ∧ AfterCall s s' (G0 P (4 * n) p.buf)) (fun s' => AfterCall s s' (G0 P (4 * n) p.buf)) := by
  refine check_call (R := Eq) hs hr eP fun s1 p1 hm hs1 hr1 _ hp1 eP1 => ?_
  rw [← hm] at hG
  exact check_tail (K := fun p => Simd.Unicode.is_utf32le i ⟨p, n⟩) (.inr rfl) hs1 hr1 eP1 hG (fun _ _ => Simd.Unicode.ren_is_utf32le ..) fun a => Simd.Unicode.uses_is_utf32le (d := ⟨a, n⟩) (by rfl) _

theorem swap_sim (t : Simd.Unicode.Elem) (i : Option Isa) (hs : Sound s) (hr : Readable s p (t.size * n)) (hm : Mutable s q (t.size * d)) (hq : q.buf < s.next) (eP : place s p = P) (eQ : place s q = Q)
    (ho : NoOverlap P (t.size * n) Q (t.size * d)) (hG : Good2 (fun p q => Simd.Unicode.swap_endianness t i ⟨p, n⟩ ⟨q, d⟩) P (t.size * n) Q (t.size * d) s.mem) :
    Sim (swap_endianness t i ⟨p, n⟩ ⟨q, d⟩ s) ((Simd.Unicode.swap_endianness t i ⟨P, n⟩ ⟨Q, d⟩).run s.mem) (fun v v' s' => AfterCall s s' (G2 P (t.size * n) p.buf Q (t.size * d) q.buf) ∧ Ret t.size s q.buf s' v v')
      (fun s' => AfterCall s s' (G2 P (t.size * n) p.buf Q (t.size * d) q.buf)) := by
  refine copy_call (Ret.res _) hs hr hm hq eP eQ ho fun s1 p1 hmem hs1 hr1 hm1 hq1 hp1 eP1 eQ1 => ?_
  rw [← hmem] at hG
  refine Sim.bind (Sim.assert _) ?_
  rintro _ _ _ hrun ⟨rfl, hd⟩
  have hG2 := Good2.next (X := fun _ _ => assert (n ≤ d)) (K := fun p q _ => do Simd.Unicode.swap_auto t i p n q; return (⟨q, n⟩ : Slice)) hG ho (fun _ _ _ => Ren.assert _) hrun
  exact copy_tail (K := fun p q => Simd.Unicode.swap_auto t i p n q) (.inl rfl) rfl hs1 hr1 hm1 hq1 eP1 eQ1 ho (Nat.mul_le_mul_left _ (of_decide_eq_true hd)) (Good2.head hG2) (fun _ _ _ => Simd.Unicode.ren_swap_auto ..)
    fun _ _ => Simd.Unicode.uses_swap_auto (by rfl) (by rfl) _ _ _

theorem swap_inplace_sim (t : Simd.Unicode.Elem) (i : Option Isa) (hs : Sound s) (hm : Mutable s p (t.size * n)) (eP : place s p = P) (hG : Good1 (fun p => Simd.Unicode.swap_endianness_inplace t i ⟨p, n⟩) P (t.size * n) s.mem) :
    Sim (swap_endianness_inplace t i ⟨p, n⟩ s) ((Simd.Unicode.swap_endianness_inplace t i ⟨P, n⟩).run s.mem) (fun v v' s' => AfterCall s s' (G1 P (t.size * n) p.buf) ∧ v = v')
      (fun s' => AfterCall s s' (G1 P (t.size * n) p.buf)) := by
  refine inplace_call (R := fun _ _ _ a b => a = b) eq_res hs hm eP fun s1 p1 hmem hs1 hm1 _ hp1 eP1 ht => ?_
  rw [← hmem] at hG
  subst eP1
  refine Sim.left (as_mut_ptr_sim hs1 hm1) ?_
  rintro r s2 hm' ⟨h1, h2, h3⟩
  rw [← hm'] at hG ⊢
  exact (kern1 (R := fun _ => Eq) (F := fun p => Simd.Unicode.swap_auto t i p n p) h1.sound h2.place hG (fun _ _ => Simd.Unicode.ren_swap_auto ..) (Simd.Unicode.uses_swap_auto (by rfl) (by rfl) _ _ _) h3).mono
    (fun v v' s' ⟨e, _, h⟩ => ⟨h1.push h (tag1 hp1) (G1_new (Nat.le_refl _) h2.toMade), e⟩) fun s' ⟨_, h⟩ => h1.push h (tag1 hp1) (G1_new (Nat.le_refl _) h2.toMade)

end Unicode

namespace Uuid

theorem parse_simple_sim (i : Option Isa) (hs : Sound s) (hr : Readable s p n) (hm : Mutable s q 16) (hq : q.buf < s.next) (eP : place s p = P) (eQ : place s q = Q)
    (ho : NoOverlap P n Q 16) (hG : Good2 (fun p q => Simd.Uuid.parse_simple i ⟨p, n⟩ q) P n Q 16 s.mem) :
    Sim (parse_simple i ⟨p, n⟩ q s) ((Simd.Uuid.parse_simple i ⟨P, n⟩ Q).run s.mem) (fun v v' s' => AfterCall s s' (G2 P n p.buf Q 16 q.buf) ∧ RetB s q.buf s' v v')
      (fun s' => AfterCall s s' (G2 P n p.buf Q 16 q.buf)) := by
  refine copy_call (Ret.res 1) hs hr hm hq eP eQ ho fun s1 p1 hmem hs1 hr1 hm1 hq1 hp1 eP1 eQ1 => ?_
  rw [← hmem] at hG
  refine Sim.bind (Sim.ensure _ (AfterCall.refl hs1 _)) ?_
  rintro _ _ _ hrun ⟨rfl, hd⟩
  have hG2 := Good2.next (X := fun _ _ => ensure (n == 32)) (K := fun p q _ => do Simd.Uuid.parse_simple_auto i p q; return (⟨q, 16⟩ : Slice)) hG ho (fun _ _ _ => Ren.ensure _) hrun
  exact copy_tail (K := fun p q => Simd.Uuid.parse_simple_auto i p q) (.inl rfl) (one_mul _).symm hs1 hr1 hm1 hq1 eP1 eQ1 ho (Nat.le_refl _) (Good2.head hG2) (fun _ _ _ => Simd.Uuid.ren_parse_simple_auto ..)
    fun _ _ => Simd.Uuid.uses_parse_simple_auto (by rfl) (by rfl) _

theorem parse_hyphenated_sim (i : Option Isa) (hs : Sound s) (hr : Readable s p n) (hm : Mutable s q 16) (hq : q.buf < s.next) (eP : place s p = P) (eQ : place s q = Q)
    (ho : NoOverlap P n Q 16) (hG : Good2 (fun p q => Simd.Uuid.parse_hyphenated i ⟨p, n⟩ q) P n Q 16 s.mem) :
    Sim (parse_hyphenated i ⟨p, n⟩ q s) ((Simd.Uuid.parse_hyphenated i ⟨P, n⟩ Q).run s.mem) (fun v v' s' => AfterCall s s' (G2 P n p.buf Q 16 q.buf) ∧ RetB s q.buf s' v v')
      (fun s' => AfterCall s s' (G2 P n p.buf Q 16 q.buf)) := by
  refine copy_call (Ret.res 1) hs hr hm hq eP eQ ho fun s1 p1 hmem hs1 hr1 hm1 hq1 hp1 eP1 eQ1 => ?_
  rw [← hmem] at hG
  refine Sim.bind (Sim.ensure _ (AfterCall.refl hs1 _)) ?_
  rintro _ _ _ hrun ⟨rfl, hd⟩
  have hG2 := Good2.next (X := fun _ _ => ensure (n == 36)) (K := fun p q _ => do Simd.Uuid.parse_hyphenated_auto i p q; return (⟨q, 16⟩ : Slice)) hG ho (fun _ _ _ => Ren.ensure _) hrun
  exact copy_tail (K := fun p q => Simd.Uuid.parse_hyphenated_auto i p q) (.inl rfl) (one_mul _).symm hs1 hr1 hm1 hq1 eP1 eQ1 ho (Nat.le_refl _) (Good2.head hG2) (fun _ _ _ => Simd.Uuid.ren_parse_hyphenated_auto ..)
    fun _ _ => Simd.Uuid.uses_parse_hyphenated_auto (by rfl) (by rfl) _

theorem format_simple_sim (i : Option Isa) (c : AsciiCase) (hs : Sound s) (hr : Readable s p 16) (hm : Mutable s q 32) (hq : q.buf < s.next) (eP : place s p = P) (eQ : place s q = Q)
    (ho : NoOverlap P 16 Q 32) (hG : Good2 (fun p q => Simd.Uuid.format_simple i p q c) P 16 Q 32 s.mem) :
    Sim (format_simple i p q c s) ((Simd.Uuid.format_simple i P Q c).run s.mem) (fun v v' s' => AfterCall s s' (G2 P 16 p.buf Q 32 q.buf) ∧ RetB s q.buf s' v v')
      (fun s' => AfterCall s s' (G2 P 16 p.buf Q 32 q.buf)) := by
  refine copy_call (Ret.res 1) hs hr hm hq eP eQ ho fun s1 p1 hmem hs1 hr1 hm1 hq1 hp1 eP1 eQ1 => ?_
  rw [← hmem] at hG
  exact copy_tail (K := fun p q => Simd.Uuid.format_simple_auto i p q c) (.inl rfl) (one_mul _).symm hs1 hr1 hm1 hq1 eP1 eQ1 ho (Nat.le_refl _) (Good2.head hG) (fun _ _ _ => Simd.Uuid.ren_format_simple_auto ..)
    fun _ _ => Simd.Uuid.uses_format_simple_auto (by rfl) (by rfl) _ _

theorem format_hyphenated_sim (i : Option Isa) (c : AsciiCase) (hs : Sound s) (hr : Readable s p 16) (hm : Mutable s q 36) (hq : q.buf < s.next) (eP : place s p = P) (eQ : place s q = Q)
    (ho : NoOverlap P 16 Q 36) (hG : Good2 (fun p q => Simd.Uuid.format_hyphenated i p q c) P 16 Q 36 s.mem) :
    Sim (format_hyphenated i p q c s) ((Simd.Uuid.format_hyphenated i P Q c).run s.mem) (fun v v' s' => AfterCall s s' (G2 P 16 p.buf Q 36 q.buf) ∧ RetB s q.buf s' v v')
      (fun s' => AfterCall s s' (G2 P 16 p.buf Q 36 q.buf)) := by
  refine copy_call (Ret.res 1) hs hr hm hq eP eQ ho fun s1 p1 hmem hs1 hr1 hm1 hq1 hp1 eP1 eQ1 => ?_
  rw [← hmem] at hG
  exact copy_tail (K := fun p q => Simd.Uuid.format_hyphenated_auto i p q c) (.inl rfl) (one_mul _).symm hs1 hr1 hm1 hq1 eP1 eQ1 ho (Nat.le_refl _) (Good2.head hG) (fun _ _ _ => Simd.Uuid.ren_format_hyphenated_auto ..)
    fun _ _ => Simd.Uuid.uses_format_hyphenated_auto (by rfl) (by rfl) _ _

end Uuid

end Simd.Tree
