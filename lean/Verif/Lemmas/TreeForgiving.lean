import Verif.Lemmas.TreeUuid
import Verif.Lemmas.BorrowForgiving
/-
The forgiving decoders of base64-simd with borrow trees.
-/
namespace Simd.Tree
open Spec
open Borrow (Good1 Good2 Good1.head Good1.next Good2.head Good2.next noOverlap_pt)
open Borrow.Base64 (strip ren_strip uses_strip)

variable {s : State} {p q P Q : Ptr} {n d : Nat}

/-- Tag `r` is `q` itself or was made from it. -/
structure Kin (s s' : State) (q r : Nat) : Prop where
  hi : r < s'.next
  lo : r = q ∨ s.next ≤ r
  line : ∀ u, u < s.next → s'.up r u = s.up q u

theorem Kin.made {s s1 s2 : State} {p q r : Nat} (h : Kin s s1 p q) (hn : s.next ≤ s1.next) (h' : Made s1 s2 q r) : Made s s2 p r :=
  ⟨Nat.le_trans hn h'.lo, h'.hi, fun u hu => (h'.line u (Nat.lt_of_lt_of_le hu hn)).trans (h.line u hu)⟩

theorem Made.kin {s s1 s2 : State} {p q r : Nat} (h : Made s s1 p q) (hn : s.next ≤ s1.next) (h' : Kin s1 s2 q r) : Made s s2 p r :=
  ⟨by rcases h'.lo with e | e
      · rw [e]; exact h.lo
      · exact Nat.le_trans hn e, h'.hi, fun u hu => (h'.line u (Nat.lt_of_lt_of_le hu hn)).trans (h.line u hu)⟩

/-- Lending a part of the destination with a tag made from the lender's or the same. -/
theorem G1_kin {P : Ptr} {n t m r : Nat} {s s1 : State} (hm : m ≤ n) (hr : Kin s s1 t r) (b i : Nat) : Fits s s1 (G1 P n t b i) (G1 P m r b i) := by
  rcases hr.lo with rfl | h
  · exact none_or (G1_part hm) b i
  · exact G1_new hm ⟨h, hr.hi, hr.line⟩ b i

/-- The result of `remove_ascii_whitespace_inplace`: a part of the argument. -/
def Part (P : Ptr) (n : Nat) (s0 : State) (q : Nat) (s : State) (r r' : Slice) : Prop := r' = ⟨P, r.len⟩ ∧ r.len ≤ n ∧ Kin s0 s q r.ptr.buf ∧ place s r.ptr = P ∧ Mutable s r.ptr r.len

theorem Part.res (P : Ptr) (n : Nat) : Res (Part P n) :=
  ⟨fun hb h => ⟨h.1, h.2.1, ⟨by rw [hb.facts.2.2.1]; exact h.2.2.1.hi, h.2.2.1.lo, by rw [hb.facts.2.2.2.2.2.1]; exact h.2.2.1.line⟩, by rw [hb.place]; exact h.2.2.2.1, hb.mutable h.2.2.2.2⟩,
    fun hn hu h => ⟨h.1, h.2.1, ⟨h.2.2.1.hi, h.2.2.1.lo.imp id (Nat.le_trans hn), fun u h' => (h.2.2.1.line u (Nat.lt_of_lt_of_le h' hn)).trans (hu u h')⟩, h.2.2.2⟩,
    fun hn hm h => ⟨h.1, h.2.1, ⟨h.2.2.1.hi, .inr (hm.kin hn h.2.2.1).lo, (hm.kin hn h.2.2.1).line⟩, h.2.2.2⟩⟩

/-- `get_unchecked_mut(..m)` on a reborrow of the whole. -/
theorem sub_mut_sim {m : Nat} (hs : Sound s) (hm : Mutable s p n) (hmn : m ≤ n) :
    Sim ((retag .mut p n >>= fun d => call (arg .mut d n >>= fun d => retag .mut d m)) s) (.ok () s.mem)
      (fun r _ s' => AfterCall s s' (G1 (place s p) n p.buf) ∧ Derived s s' p r ∧ Mutable s' r m) (fun _ => True) := by
  refine Sim.left (E := fun _ => True) (slice_mut_sim hs hm) ?_
  rintro d s1 hm1 ⟨h1, h2, h3⟩
  have h4 := call_sim (k := .mut) (body := fun d => retag .mut d m) (G := nothing) (o := .ok () s1.mem) (Q := fun r _ s' => Derived s1 s' d r ∧ Mutable s' r m) (E := fun _ => True) h1.sound nothing_tag h3.readable fun s2 hm2 hs2 h => by
    rw [← hm2]
    obtain ⟨hn, hd, -, -⟩ := h.enter
    have hmu := (h.mutable (sound_enter h1.sound) h3.enter).mono hmn
    refine (Sim.cast (w := ()) (E' := fun _ => False) (slice_mut_sim hs2 hmu)).mono ?_ fun _ h => h.elim
    rintro r _ s3 ⟨-, h5, h6, h7⟩
    have epl : place s2 ⟨s1.next, d.off⟩ = place s1 d := h.place_new
    rw [epl] at h5
    exact ⟨h5.weaken (G1_part hmn), fun s4 hb => ⟨hb.derived (hd.trans (Nat.le_of_lt (by show s1.next < s2.next; omega)) h6), hb.mutable h7⟩⟩
  rw [← hm1]
  exact h4.mono (fun r _ s3 ⟨h5, h6, h7⟩ => ⟨h1.push (h2.place ▸ h5) (tag1 hm.1) (G1_new (Nat.le_refl _) h2.toMade), h2.trans h1.next h6, h7⟩) fun _ _ => trivial

/-- Like `check_tail`, within a function that also has a destination. -/
theorem check_tail2 {β : Type} {mk : Ptr → Nat → BProg Ptr} (hmk : IsRaw mk) {K : Ptr → Prog β} (hs : Sound s) (hr : Readable s p n) (eP : place s p = P) (eQ : place s q = Q) (hq : q.buf < s.next)
    (ho : NoOverlap P n Q d) (hG : Good2 (fun p _ => K p) P n Q d s.mem) (hF : ∀ ρ a, RenE ρ (K ⟨a, P.off⟩) (K ⟨ρ a, P.off⟩)) (hu : ∀ a : Ptr, Uses' (· = a.buf) (fun _ => False) (K a)) :
    Sim ((mk p n >>= fun r => prog (K r)) s) ((K P).run s.mem) (fun v v' s' => v = v' ∧ AfterCall s s' (G0 P n p.buf)) (fun s' => AfterCall s s' (G0 P n p.buf)) := by
  subst eP
  refine Sim.left (hmk.sim hs hr) ?_
  rintro r s1 hm ⟨h1, h2, h3⟩
  rw [← hm] at hG ⊢
  exact (kern2_read (R := fun _ _ => Eq) (b := q.buf) h1.sound h2.place hG hF (hu r) (by rw [h1.home _ hq, ← eQ]; rfl) (by have := h2.lo; omega) ho h3).mono
    (fun v v' s' ⟨e, _, h⟩ => ⟨e, h1.push h (tag0 hr.1) (G0_new h2.toMade)⟩) fun s' ⟨_, h⟩ => h1.push h (tag0 hr.1) (G0_new h2.toMade)

namespace Base64

theorem find_sim1 (fi : Option Isa) (hs : Sound s) (hr : Readable s p n) (eP : place s p = P)
    (hG : Good1 (fun p => Simd.Base64.find_non_ascii_whitespace fi ⟨p, n⟩) P n s.mem) :
    Sim (find_non_ascii_whitespace fi ⟨p, n⟩ s) ((Simd.Base64.find_non_ascii_whitespace fi ⟨P, n⟩).run s.mem) (fun v v' s' => v = v' ∧ AfterCall s s' (G0 P n p.buf)) (fun s' => AfterCall s s' (G0 P n p.buf)) := by
  refine check_call (R := Eq) hs hr eP fun s1 p1 hm hs1 hr1 _ hp1 eP1 => ?_
  rw [← hm] at hG
  exact check_tail (K := fun p => Simd.Base64.find_non_ascii_whitespace fi ⟨p, n⟩) (.inr rfl) hs1 hr1 eP1 hG (fun _ _ => Simd.Base64.ren_find_non_ascii_whitespace ..)
    fun a => Simd.Base64.uses_find_non_ascii_whitespace (d := ⟨a, n⟩) (by rfl) _

theorem find_sim2 (fi : Option Isa) (hs : Sound s) (hr : Readable s p n) (eP : place s p = P) (eQ : place s q = Q) (hq : q.buf < s.next) (ho : NoOverlap P n Q d)
    (hG : Good2 (fun p _ => Simd.Base64.find_non_ascii_whitespace fi ⟨p, n⟩) P n Q d s.mem) :
    Sim (find_non_ascii_whitespace fi ⟨p, n⟩ s) ((Simd.Base64.find_non_ascii_whitespace fi ⟨P, n⟩).run s.mem) (fun v v' s' => v = v' ∧ AfterCall s s' (G0 P n p.buf)) (fun s' => AfterCall s s' (G0 P n p.buf)) := by
  subst eP
  refine (call_sim (k := .shared) (G := nothing) (Q := fun v v' _ => v = v') (E := fun _ => True) hs nothing_tag hr fun s1 hm hs1 h => ?_).mono (fun _ _ _ h => ⟨h.2, h.1⟩) fun _ h => h.1
  rw [← hm]
  rw [← hm] at hG
  have hn : s1.next = s.next + 1 := h.next
  refine (check_tail2 (q := q) (K := fun p => Simd.Base64.find_non_ascii_whitespace fi ⟨p, n⟩) (.inr rfl) hs1 (h.readable (sound_enter hs) hr.enter) h.place_new ((h.place_old hq).trans eQ) (by omega) ho hG
    (fun _ _ => Simd.Base64.ren_find_non_ascii_whitespace ..) fun a => Simd.Base64.uses_find_non_ascii_whitespace (d := ⟨a, n⟩) (by rfl) _).mono (fun v v' s' h => ⟨h.2, fun _ _ => h.1⟩) fun s' h => ⟨h, fun _ _ => trivial⟩

theorem remove_sim (fi : Option Isa) (hs : Sound s) (hm : Mutable s p n) (eP : place s p = P)
    (hG : Good1 (fun p => Simd.Base64.remove_ascii_whitespace_inplace fi ⟨p, n⟩) P n s.mem) :
    Sim (remove_ascii_whitespace_inplace fi ⟨p, n⟩ s) ((Simd.Base64.remove_ascii_whitespace_inplace fi ⟨P, n⟩).run s.mem)
      (fun r r' s' => AfterCall s s' (G1 P n p.buf) ∧ Part P n s p.buf s' r r') (fun s' => AfterCall s s' (G1 P n p.buf)) := by
  refine inplace_call (Part.res P n) hs hm eP fun s1 p1 hmem hs1 hm1 hlo hp1 eP1 ht => ?_
  rw [← hmem] at hG
  refine Sim.bind2 (f := fun c => find_non_ascii_whitespace fi ⟨c, n⟩) (inplace_read (R := Eq) hs1 eP1 ht fun s2 c hm2 hs2 hr2 hc2 ec2 => ?_) ?_
  · exact find_sim1 fi hs2 hr2 ec2 (hm2 ▸ Good1.head (X := fun p => Simd.Base64.find_non_ascii_whitespace fi ⟨p, n⟩) hG)
  rintro pos _ s2 hrun ⟨rfl, h⟩
  have hG2 := Good1.next (X := fun p => Simd.Base64.find_non_ascii_whitespace fi ⟨p, n⟩)
    (K := fun p pos => do
      assert (pos ≤ n)
      if pos = n then pure (⟨p, n⟩ : Slice)
      else do
        padd p pos
        let rem ← Simd.Base64.remove_ascii_whitespace_fallback (p.add pos) (n - pos) (p.add pos)
        assert (rem ≤ n - pos)
        if pos + rem ≤ n then pure (⟨p, pos + rem⟩ : Slice) else .ub) hG (fun _ _ => Simd.Base64.ren_find_non_ascii_whitespace ..) hrun
  refine Sim.bind (Sim.assert _) ?_
  rintro _ _ s2 hrun ⟨rfl, hle⟩
  have hG3 := Good1.next (X := fun _ => assert (pos ≤ n)) hG2 (fun _ _ => Ren.assert _) hrun
  by_cases hpn : pos = n
  · subst hpn
    dsimp only
    rw [if_pos rfl, if_pos rfl]
    subst eP1
    exact Sim.ret ⟨h, rfl, Nat.le_refl _, ⟨Nat.lt_of_lt_of_le hp1 h.next, .inl rfl, fun u _ => congrFun (h.up _ hp1) u⟩, AfterCall.place h hp1, G1_mutable h hp1 hm1⟩
  simp only [if_neg hpn] at hG3
  dsimp only
  rw [if_neg hpn, if_neg hpn]
  have hle : pos ≤ n := of_decide_eq_true hle
  have hs2 := h.sound
  subst eP1
  have hm2 := G1_mutable h hp1 hm1
  have e2 := AfterCall.place h hp1
  have key := inplace_kern (K := fun p => padd p pos >>= fun _ => Simd.Base64.remove_ascii_whitespace_fallback (p.add pos) (n - pos) (p.add pos))
    (C := fun _ rem => prog (assert (rem ≤ n - pos)) >>= fun _ =>
      if pos + rem ≤ n then do
        let d ← retag .mut p1 n
        let r ← call do
          let d ← arg .mut d n
          retag .mut d (pos + rem)
        pure ⟨r, pos + rem⟩
      else prog .ub)
    (o := fun rem => assert (rem ≤ n - pos) >>= fun _ => if pos + rem ≤ n then pure (⟨place s1 p1, pos + rem⟩ : Slice) else .ub)
    (Q := fun r r' s' => AfterCall s1 s' (G1 (place s1 p1) n p1.buf) ∧ Part (place s1 p1) n s1 p1.buf s' r r')
    (E := fun s' => AfterCall s1 s' (G1 (place s1 p1) n p1.buf)) hs2 hm2 e2 (Good1.head (K := fun p rem => assert (rem ≤ n - pos) >>= fun _ => if pos + rem ≤ n then pure (⟨p, pos + rem⟩ : Slice) else .ub)
      (by simp only [Prog.assoc]; exact hG3)) (fun ρ a => Ren.seq (Ren.padd _ _ _) fun _ => Simd.Base64.ren_remove_ascii_whitespace_fallback ..)
    (fun a => (Uses.padd _ _).seq fun _ => Simd.Base64.uses_remove_ascii_whitespace_fallback (by rfl) (by rfl) _) (fun rem r s3 h3 h4 h5 h6 h7 hrun => ?_) fun s3 h3 => h.trans h3
  · simp only [prog_bind, BProg.assoc, Prog.assoc] at key
    exact key
  refine Sim.bind (Sim.assert _) ?_
  rintro _ _ s3 - ⟨rfl, hrem⟩
  have hrem := of_decide_eq_true hrem
  have hpr : pos + rem ≤ n := by omega
  rw [if_pos hpr, if_pos hpr]
  have hp2 : p1.buf < s2.next := Nat.lt_of_lt_of_le hp1 h.next
  have hs3 := h3.sound
  rw [← e2] at h3
  have hm3 := G1_mutable h3 hp2 hm2
  have e3 := (AfterCall.place h3 hp2).trans e2
  rw [← BProg.assoc]
  refine Sim.left (sub_mut_sim hs3 hm3 hpr) ?_
  rintro r s4 hm4 ⟨h8, h9, h10⟩
  rw [← hm4]
  rw [e3] at h8
  rw [e2] at h3
  have h13 := h.trans h3
  exact Sim.ret ⟨h13.trans h8, rfl, hpr, ⟨h9.hi, .inr (Nat.le_trans h13.next h9.lo), fun u hu => (h9.line u (Nat.lt_of_lt_of_le hu h13.next)).trans (congrFun (h13.up _ hp1) u)⟩, h9.place.trans e3, h10⟩

theorem forgiving_inplace_sim (fi di : Option Isa) (hs : Sound s) (hm : Mutable s p n) (eP : place s p = P)
    (hG : Good1 (fun p => Simd.Base64.remove_ascii_whitespace_inplace fi ⟨p, n⟩) P n s.mem)
    (hG' : ∀ k M, (Simd.Base64.remove_ascii_whitespace_inplace fi ⟨P, n⟩).run s.mem = .ok ⟨P, k⟩ M → Good1 (fun p => Simd.Base64.decode_inplace di Simd.Base64.STANDARD_FORGIVING ⟨p, k⟩) P k M) :
    Sim (forgiving_decode_inplace fi di ⟨p, n⟩ s) ((Simd.Base64.forgiving_decode_inplace fi di ⟨P, n⟩).run s.mem) (fun v v' s' => AfterCall s s' (G1 P n p.buf) ∧ RetB s p.buf s' v v')
      (fun s' => AfterCall s s' (G1 P n p.buf)) := by
  refine inplace_call (Ret.res 1) hs hm eP fun s1 p1 hmem hs1 hm1 _ hp1 eP1 ht => ?_
  rw [← hmem] at hG hG'
  subst eP1
  refine Sim.left (slice_mut_sim hs1 hm1) ?_
  rintro p2 s2 hmem2 ⟨h2, h2d, h2t⟩
  rw [← hmem2] at hG hG' ⊢
  have hs2 := h2.sound
  have e2 : place s2 p2 = place s1 p1 := h2d.place
  refine Sim.bind ((remove_sim fi hs2 h2t e2 hG).mono (fun _ _ _ h => h) fun s3 h3 => h2.push h3 (tag1 hp1) (G1_new (Nat.le_refl _) h2d.toMade)) ?_
  rintro r _ s3 hrun ⟨h3, rfl, hrn, hkin, er, hmr⟩
  have h13 : AfterCall s1 s3 (G1 (place s1 p1) n p1.buf) := h2.push h3 (tag1 hp1) (G1_new (Nat.le_refl _) h2d.toMade)
  refine Sim.left (slice_mut_sim h3.sound hmr) ?_
  rintro p4 s4 hmem4 ⟨h4, h4d, h4t⟩
  rw [← hmem4] at hrun ⊢
  have h14 : AfterCall s1 s4 (G1 (place s1 p1) n p1.buf) := h13.push (er ▸ h4) (tag1 hp1) (G1_new hrn (h2d.toMade.kin h2.next hkin))
  have hpush : ∀ s', AfterCall s4 s' (G1 (place s1 p1) r.len p4.buf) → AfterCall s1 s' (G1 (place s1 p1) n p1.buf) := fun s' h' => h14.push h' (tag1 hp1) (G1_new hrn ((h2d.toMade.kin h2.next hkin).trans h13.next h4d.toMade))
  exact (decode_inplace_sim di _ (h14.sound) h4t (h4d.place.trans er) (hG' _ _ hrun)).mono (fun v v' s' h => ⟨hpush _ h.1, (Ret.res 1).new h14.next ((h2d.toMade.kin h2.next hkin).trans h13.next h4d.toMade) h.2⟩) fun s' h => hpush _ h

theorem forgiving_sim (fi di : Option Isa) (hs : Sound s) (hr : Readable s p n) (hm : Mutable s q d) (hq : q.buf < s.next) (eP : place s p = P) (eQ : place s q = Q)
    (ho : NoOverlap P n Q d) (hG : Good2 (fun p q => Simd.Base64.forgiving_decode fi di ⟨p, n⟩ ⟨q, d⟩) P n Q d s.mem)
    (hG' : ∀ pos rem M, n ≤ d → pos ≠ n → (Simd.Base64.find_non_ascii_whitespace fi ⟨P, n⟩).run s.mem = .ok pos s.mem → (strip n pos P Q).run s.mem = .ok rem M →
      Good1 (fun p => Simd.Base64.decode_inplace di Simd.Base64.STANDARD_FORGIVING ⟨p, pos + rem⟩) Q (pos + rem) M) :
    Sim (forgiving_decode fi di ⟨p, n⟩ ⟨q, d⟩ s) ((Simd.Base64.forgiving_decode fi di ⟨P, n⟩ ⟨Q, d⟩).run s.mem) (fun v v' s' => AfterCall s s' (G2 P n p.buf Q d q.buf) ∧ RetB s q.buf s' v v')
      (fun s' => AfterCall s s' (G2 P n p.buf Q d q.buf)) := by
  refine copy_call (Ret.res 1) hs hr hm hq eP eQ ho fun s1 p1 hmem hs1 hr1 hm1 hq1 hp1 eP1 eQ1 => ?_
  rw [← hmem] at hG hG'
  refine Sim.bind (Sim.ensure _ (AfterCall.refl hs1 _)) ?_
  rintro _ _ s1 hrun ⟨rfl, hnd⟩
  have hnd : n ≤ d := of_decide_eq_true hnd
  have hG2 := Good2.next (X := fun _ _ => ensure (n ≤ d)) (K := fun p q _ => do
    let pos ← Simd.Base64.find_non_ascii_whitespace fi ⟨p, n⟩
    assert (pos ≤ n)
    if pos = n then Simd.Base64.decode di Simd.Base64.STANDARD_FORGIVING ⟨p, n⟩ ⟨q, d⟩ else Simd.Base64.copy_and_decode di ⟨p, n⟩ pos q) hG ho (fun _ _ _ => Ren.ensure _) hrun
  refine Sim.bind ((find_sim2 fi hs1 hr1 eP1 eQ1 hq1 ho (Good2.head (X := fun p _ => Simd.Base64.find_non_ascii_whitespace fi ⟨p, n⟩) hG2)).mono (fun _ _ _ h => h) fun _ h => h.weaken G2_src) ?_
  rintro pos _ s2 hfind ⟨rfl, h⟩
  have hG3 := Good2.next (X := fun p _ => Simd.Base64.find_non_ascii_whitespace fi ⟨p, n⟩) (K := fun p q pos => do
    assert (pos ≤ n)
    if pos = n then Simd.Base64.decode di Simd.Base64.STANDARD_FORGIVING ⟨p, n⟩ ⟨q, d⟩ else Simd.Base64.copy_and_decode di ⟨p, n⟩ pos q) hG2 ho (fun _ _ _ => Simd.Base64.ren_find_non_ascii_whitespace ..) hfind
  have hmm : s2.mem = s1.mem := (Simd.Base64.uses_find_non_ascii_whitespace (L := fun _ => True) trivial _).keeps hfind
  refine Sim.bind (Sim.assert _) ?_
  rintro _ _ s2 hrun' ⟨rfl, hle⟩
  have hle : pos ≤ n := of_decide_eq_true hle
  have hG4 := Good2.next (X := fun _ _ => assert (pos ≤ n)) hG3 ho (fun _ _ _ => Ren.assert _) hrun'
  have h' : AfterCall s1 s2 (G2 P n p1.buf Q d q.buf) := h.weaken G2_src
  subst eP1 eQ1
  have hs2 := h.sound
  have hr2 := G2_readable h' hp1 hr1
  have hm2 := G2_mutable ho h' hq1 hm1
  have hq2 := Nat.lt_of_lt_of_le hq1 h.next
  have eP2 := AfterCall.place h hp1
  have eQ2 := AfterCall.place h hq1
  dsimp only
  by_cases hpn : pos = n
  · simp only [if_pos hpn] at hG4
    rw [if_pos hpn, if_pos hpn]
    exact (decode_sim di _ hs2 hr2 hm2 hq2 eP2 eQ2 ho hG4).mono (fun _ _ _ h'' => ⟨h'.trans h''.1, h''.2.after h'⟩) fun _ h'' => h'.trans h''
  simp only [if_neg hpn] at hG4
  rw [if_neg hpn, if_neg hpn]
  rw [← hmm] at hG' hfind
  have hG5 : Good2 (strip n pos) (place s1 p1) n (place s1 q) d s2.mem := Good2.head (K := fun _ q rem => assert (rem ≤ n - pos) >>= fun _ => Simd.Base64.decode_inplace di Simd.Base64.STANDARD_FORGIVING ⟨q, pos + rem⟩)
    (by unfold strip; simp only [Prog.assoc]; exact hG4)
  have key := Sim.bind2 (f := fun r => prog (strip n pos r q)) (h := fun rem => prog (assert (rem ≤ n - pos)) >>= fun _ => slice_mut q (pos + rem) >>= fun data => decode_inplace di Simd.Base64.STANDARD_FORGIVING ⟨data, pos + rem⟩)
    (g := fun rem => assert (rem ≤ n - pos) >>= fun _ => Simd.Base64.decode_inplace di Simd.Base64.STANDARD_FORGIVING ⟨place s1 q, pos + rem⟩)
    (Q' := fun v v' s' => AfterCall s1 s' (G2 (place s1 p1) n p1.buf (place s1 q) d q.buf) ∧ RetB s1 q.buf s' v v') (E := fun s' => AfterCall s1 s' (G2 (place s1 p1) n p1.buf (place s1 q) d q.buf))
    ((copy_kern (.inl rfl) hs2 hr2 hm2 hq2 eP2 eQ2 ho hG5 (fun _ _ _ => ren_strip ..) fun _ _ => uses_strip ..).mono (fun _ _ _ h => h) fun _ h'' => h'.trans h'') ?_
  · unfold strip at key
    simp only [prog_bind, BProg.assoc, Prog.assoc] at key
    exact key
  rintro rem _ s3 hrun3 ⟨rfl, h3⟩
  refine Sim.bind (Sim.assert _) ?_
  rintro _ _ s3 - ⟨rfl, hrem⟩
  have hrem : rem ≤ n - pos := of_decide_eq_true hrem
  have hpd : pos + rem ≤ d := by omega
  have h13 := h'.trans h3
  have hm3 := (G2_mutable ho h13 hq1 hm1).mono hpd
  refine Sim.left (slice_mut_sim h13.sound hm3) ?_
  rintro data s4 hmem4 ⟨h4, h4d, h4t⟩
  rw [← hmem4] at hrun3 ⊢
  have e3 : place s3 q = place s1 q := AfterCall.place h13 hq1
  rw [e3] at h4
  have h14 := h13.push h4 (tag2 hp1 hq1) (none_or (G2_dst ho hpd))
  have hmd : Made s1 s4 q.buf data.buf := h4d.toMade.old h13.next fun u _ => congrFun (h13.up _ hq1) u
  have hpush : ∀ s', AfterCall s4 s' (G1 (place s1 q) (pos + rem) data.buf) → AfterCall s1 s' (G2 (place s1 p1) n p1.buf (place s1 q) d q.buf) := fun s' h5 => h14.push h5 (tag2 hp1 hq1) fun b i => by
    by_cases hb : In (place s1 q) (pos + rem) b i
    · exact .inr (.inr (.inr (.inr ⟨_, _, (over_out fun h' => noOverlap_pt ho h' (in_mono hpd hb)).trans (over_in (in_mono hpd hb)), over_in hb, hmd⟩)))
    · exact .inl (over_out hb)
  exact (decode_inplace_sim di _ (h14.sound) h4t (h4d.place.trans e3) (hG' pos rem _ hnd hpn hfind hrun3)).mono (fun v v' s' h => ⟨hpush _ h.1, (Ret.res 1).new h14.next hmd h.2⟩) fun s' h => hpush _ h

end Base64

end Simd.Tree
