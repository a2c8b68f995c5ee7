import Verif.Lemmas.BorrowBoxes
import Verif.Lemmas.BorrowAppend
/-
`forgiving_decode_to_vec` of base64-simd with borrow stacks.
-/
namespace Simd.Base64
open Spec Borrow

theorem good_find (fi : Option Isa) {m : Mem} {p : Ptr} {xs : List Byte} {n : Nat} (hl : xs.length = n) (hr : Reads m p xs) : Good1 (fun p => find_non_ascii_whitespace fi ⟨p, n⟩) p n m := by
  subst hl
  refine good1_of (fun m p hr => ⟨⟨0, 0⟩, ⟨0, 0⟩, .inl ⟨?_, ?_, Spec.Confined.inside_inplace ?_ _ _⟩⟩) hr
  · exact uses_find_non_ascii_whitespace (L := fun _ => True) trivial _
  · rw [find_run fi hr]; nofun
  · exact confined_inplace (uses_find_non_ascii_whitespace (L := fun _ => True) (W := fun _ => True) (d := ⟨p, xs.length⟩) trivial _) (.inl ⟨_, find_run fi (Mem.keep_reads hr)⟩) fun _ _ _ => rfl

end Simd.Base64

namespace Simd.Borrow
open Spec

variable {α β : Type} {s s1 s2 s3 : State} {p P q Q : Ptr} {n m d t N : Nat} {G : Nat → Nat → Loan} {xs : List Byte}

theorem newVec_ret (s s1 s2 : State) (a b : RVec) (hm : s1.mem = s.mem) (hn : s.next ≤ s1.next) (h : NewVec s1 s2 a b) : NewVec s s2.ret a b := ⟨h.1.ret hm hn, by rw [h.2, hm]⟩

abbrev VecOk (s : State) (P : Ptr) (n t : Nat) (r r' : RVec) (s' : State) : Prop := AfterCall s s' (GH P n t s.mem.nbuf) ∧ NewVec s s' r r'

theorem VecOk.earlier {r r' : RVec} (h : VecOk s1 P n t r r' s2) (hm : s1.mem = s.mem) (h0 : AfterCall s s1 (G0 P n t)) : VecOk s P n t r r' s2 := by
  obtain ⟨h1, h2, h3⟩ := h
  rw [hm] at h1 h3
  exact ⟨(h0.weaken GH_src).trans h1, h2.earlier hm h0.next, h3⟩

/-- A part of the new memory has been used through its owner. -/
theorem NewOwner.used {k : Nat} (hs : Sound s) (hP : P.buf < s.mem.nbuf) (hA : AfterCall s s1 (GH P n t s.mem.nbuf)) (hN : NewOwner s s1 q m) (h : AfterCall s1 s2 (G1 ⟨s.mem.nbuf, 0⟩ k q.buf))
    (hn : s2.mem.nbuf = s1.mem.nbuf) (hz : s2.mem.size = s1.mem.size) : AfterCall s s2 (GH P n t s.mem.nbuf) ∧ NewOwner s s2 q m := by
  refine ⟨hA.push hs h (fits_own (GH_own hP) (Nat.le_refl _) hN.lo), hN.step h (fun b i hi => ?_) hn hz⟩
  by_cases h' : In ⟨s.mem.nbuf, 0⟩ k b i
  · exact .inr (over_in h')
  · exact .inl (over_out h')

theorem capacity_sim (Pl : Plat) (extra : Nat) (s : State) {Y : RVec → BProg α} {y : RVec → Prog β} {F : α → β → State → Prop} {E : State → Prop}
    (h : n + extra ≤ Pl.isizeMax → Sim (Y ⟨s.next, 0, n + extra⟩ (State.allocated s (n + extra))) ((y ⟨s.mem.nbuf, 0, n + extra⟩).run (s.mem.alloc (n + extra))) F E) :
    Sim ((with_capacity Pl extra n >>= Y) s) ((Simd.Base64.vec_with_capacity Pl extra n >>= y).run s.mem) F E := by
  unfold with_capacity Simd.Base64.vec_with_capacity
  split
  · rename_i hc; exact h hc
  · trivial

namespace Base64

theorem forgiving_tail (Pl : Plat) (extra : Nat) (fi : Option Isa) {di : Option Isa} (hd : di ≠ some .sse2) {pos : Nat} (hs : Sound s) (hr : Readable s p n) (hp : p.buf < s.next) (eP : place s p = P) (hP : P.buf < s.mem.nbuf)
    (hl : xs.length = n) (hx : Reads s.mem P xs) (hpos : pos ≠ n) (hfind : (Simd.Base64.find_non_ascii_whitespace fi ⟨P, n⟩).run s.mem = .ok pos s.mem)
    (hF : ∀ d, d ≤ Pl.isizeMax → ∀ m p q, Reads m p xs → Writable m q d → NoOverlap p n q d → Fine (Simd.Base64.forgiving_decode fi di ⟨p, n⟩ ⟨q, d⟩) m p n q d)
    (hsafe : (Simd.Base64.vec_with_capacity Pl extra n >>= fun vec => Simd.Base64.copy_and_decode di ⟨P, n⟩ pos ⟨vec.buf, 0⟩ >>= fun ans => vec.set_len ans.len).run s.mem ≠ .ub) :
    Sim ((with_capacity Pl extra n >>= fun vec => as_ptr p n >>= fun src => prog (strip n pos src ⟨vec.buf, 0⟩) >>= fun rem => prog (assert (rem ≤ n - pos)) >>= fun _ => slice_mut ⟨vec.buf, 0⟩ (pos + rem) >>= fun d =>
        orDrop (decode_inplace di Simd.Base64.STANDARD_FORGIVING ⟨d, pos + rem⟩) (drop_vec vec) >>= fun ans => set_len vec ans.len) s)
      ((Simd.Base64.vec_with_capacity Pl extra n >>= fun vec => strip n pos P ⟨vec.buf, 0⟩ >>= fun rem => assert (rem ≤ n - pos) >>= fun _ =>
        Simd.Base64.decode_inplace di Simd.Base64.STANDARD_FORGIVING ⟨⟨vec.buf, 0⟩, pos + rem⟩ >>= fun ans => vec.set_len ans.len).run s.mem)
      (VecOk s P n p.buf) (BoxErr s P n p.buf) := by
  subst hl
  have hsafe : (Simd.Base64.vec_with_capacity Pl extra xs.length >>= fun vec => strip xs.length pos P ⟨vec.buf, 0⟩ >>= fun rem => assert (rem ≤ xs.length - pos) >>= fun _ =>
      Simd.Base64.decode_inplace di Simd.Base64.STANDARD_FORGIVING ⟨⟨vec.buf, 0⟩, pos + rem⟩ >>= fun ans => vec.set_len ans.len).run s.mem ≠ .ub := by
    unfold strip
    unfold Simd.Base64.copy_and_decode at hsafe
    simp only [Prog.assoc] at hsafe ⊢
    exact hsafe
  refine capacity_sim Pl extra s fun hc => ?_
  have hal : (Simd.Base64.vec_with_capacity Pl extra xs.length).run s.mem = .ok ⟨s.mem.nbuf, 0, xs.length + extra⟩ (s.mem.alloc (xs.length + extra)) := by
    unfold Simd.Base64.vec_with_capacity; rw [if_pos hc]; rfl
  have hsafe := Prog.safe_next hsafe hal
  have hA := after_alloc s (xs.length + extra)
  have hN := owner_alloc s (xs.length + extra)
  have hx1 := hx.alloc hP (xs.length + extra)
  have hw1 := writable_alloc s.mem (xs.length + extra)
  have ho : NoOverlap P xs.length ⟨s.mem.nbuf, 0⟩ (xs.length + extra) := noOverlap_new hP
  have hP' : (place s p).buf < s.mem.nbuf := eP.symm ▸ hP
  have hfind1 : (Simd.Base64.find_non_ascii_whitespace fi ⟨P, xs.length⟩).run (s.mem.alloc (xs.length + extra)) = .ok pos (s.mem.alloc (xs.length + extra)) := by
    rw [Simd.Base64.find_run fi hx] at hfind
    cases hfind
    exact Simd.Base64.find_run fi hx1
  obtain ⟨rem, hrun, hrl⟩ := Simd.Base64.strip_run fi hx1 hw1 ho (Nat.le_add_right _ _) hpos hfind1
  have hstl := Simd.Base64.stripWs_length xs
  have hle : pos ≤ xs.length := by
    rw [Simd.Base64.find_run fi hx] at hfind
    cases hfind
    exact Simd.Base64.firstWs_le xs
  have hG : Good2 (strip xs.length pos) P xs.length ⟨s.mem.nbuf, 0⟩ (xs.length + extra) (s.mem.alloc (xs.length + extra)) := by
    have hG1 := good2_of rfl (hF _ hc) hx1 hw1 ho
    have hG2 := Good2.next (X := fun _ _ => ensure (xs.length ≤ xs.length + extra)) (K := fun p q _ => do
      let pos ← Simd.Base64.find_non_ascii_whitespace fi ⟨p, xs.length⟩
      assert (pos ≤ xs.length)
      if pos = xs.length then Simd.Base64.decode di Simd.Base64.STANDARD_FORGIVING ⟨p, xs.length⟩ ⟨q, xs.length + extra⟩ else Simd.Base64.copy_and_decode di ⟨p, xs.length⟩ pos q) hG1 ho (fun _ _ _ => Ren.ensure _)
      (v := ()) (M' := s.mem.alloc (xs.length + extra)) (by rw [decide_eq_true (Nat.le_add_right _ _)]; rfl)
    have hG3 := Good2.next (X := fun p _ => Simd.Base64.find_non_ascii_whitespace fi ⟨p, xs.length⟩) (K := fun p q pos => do
      assert (pos ≤ xs.length)
      if pos = xs.length then Simd.Base64.decode di Simd.Base64.STANDARD_FORGIVING ⟨p, xs.length⟩ ⟨q, xs.length + extra⟩ else Simd.Base64.copy_and_decode di ⟨p, xs.length⟩ pos q) hG2 ho (fun _ _ _ => Simd.Base64.ren_find_non_ascii_whitespace ..) hfind1
    have hG4 := Good2.next (X := fun _ _ => assert (pos ≤ xs.length)) hG3 ho (fun _ _ _ => Ren.assert _) (v := ()) (M' := s.mem.alloc (xs.length + extra)) (by rw [decide_eq_true hle]; rfl)
    simp only [if_neg hpos] at hG4
    exact Good2.head (K := fun _ q rem => assert (rem ≤ xs.length - pos) >>= fun _ => Simd.Base64.decode_inplace di Simd.Base64.STANDARD_FORGIVING ⟨q, pos + rem⟩)
      (by unfold strip; simp only [Prog.assoc]; exact hG4)
  refine raw_sim (q := ⟨s.next, 0⟩) (Q := ⟨s.mem.nbuf, 0⟩) (d := xs.length + extra) (.inl rfl) (hA.sound hs) (fresh_readable hP' hp hA hr) hN.mutable hN.hi ((AfterCall.place hA hp).trans eP) hN.place_eq ho hG
    (fun ρ a b => ren_strip ..) (uses_strip _ _) fun r s3 hm3 hh hK => ?_
  have hm3 : s3.mem = s.mem.alloc (xs.length + extra) := hm3
  rw [hm3] at hK
  refine Sim.bind (hK.noErr (by rw [hrun]; nofun)) ?_
  rintro rem' _ s4 hrun4 ⟨rfl, hf⟩
  obtain ⟨hA4, hN4⟩ := after_fill hs hP hA hN hf
  have hG' := Simd.Base64.good_stripped fi hd hx1 hw1 ho (Nat.le_add_right _ _) hpos hfind1 hrun4
  have hsafe := Prog.safe_next hsafe hrun4
  refine Sim.bind (Sim.assert _) ?_
  rintro _ _ s4 hrun5 ⟨rfl, hrem⟩
  have hsafe := Prog.safe_next hsafe hrun5
  have hrem : rem' ≤ xs.length - pos := of_decide_eq_true hrem
  have hpd : pos + rem' ≤ xs.length + extra := by omega
  refine Sim.left (slice_mut_sim (hN4.mutable.mono hpd)) ?_
  rintro data s5 hm5 ⟨h5, h5d, h5t⟩
  rw [← hm5] at hsafe hG' ⊢
  have e4 : place s4 ⟨s.next, 0⟩ = ⟨s.mem.nbuf, 0⟩ := hN4.place_eq
  rw [e4] at h5
  have hs4 := hA4.sound hs
  have hs5 := h5.sound hs4
  have push : ∀ {s6}, AfterCall s5 s6 (G1 ⟨s.mem.nbuf, 0⟩ (pos + rem') data.buf) → s6.mem.nbuf = s5.mem.nbuf ∧ s6.mem.size = s5.mem.size → AfterCall s s6 (GH P xs.length p.buf s.mem.nbuf) ∧ NewOwner s s6 ⟨s.next, 0⟩ (xs.length + extra) := fun h hsh =>
    NewOwner.used hs hP hA4 hN4 (h5.push hs4 h (G1_new (Nat.le_refl _) h5d.lo)) (by rw [hsh.1, hm5]) (by rw [hsh.2, hm5])
  have hu := Simd.Base64.uses_decode_inplace (L := fun _ => True) (W := fun _ => True) (d := ⟨⟨s.mem.nbuf, 0⟩, pos + rem'⟩) trivial trivial di Simd.Base64.STANDARD_FORGIVING
  refine Sim.bind (Sim.orDrop (E'' := fun _ => True) (decode_inplace_sim di _ hs5 (OnTop.mutable h5t (.inl rfl)) (h5d.place.trans e4) hG').withRun fun s6 hf => ?_) ?_
  · obtain ⟨h1, h2⟩ := push hf.1 (hu.shape (.inr hf.2))
    exact (h2.drop rfl hs h1 (GH_own hP)).mono (fun _ _ _ h => h.2) fun _ h => h
  rintro ans _ s6 hrun6 ⟨⟨h6, rfl, -⟩, hrun6'⟩
  obtain ⟨h1, h2⟩ := push h6 (hu.shape (.inl ⟨_, hrun6'⟩))
  have hsafe := Prog.safe_next hsafe hrun6
  refine (set_len_sim (v := ⟨s.next, 0, xs.length + extra⟩) h2.home hsafe).mono ?_ fun _ h => h
  rintro _ _ _ ⟨rfl, rfl, rfl⟩
  exact ⟨h1, h2, rfl⟩

theorem forgiving_vec_sim (Pl : Plat) (extra : Nat) (fi : Option Isa) {di : Option Isa} (hd : di ≠ some .sse2) (hs : Sound s) (hr : Readable s p n) (eP : place s p = P) (hP : P.buf < s.mem.nbuf) (hl : xs.length = n)
    (hx : Reads s.mem P xs) (hF : ∀ d, d ≤ Pl.isizeMax → ∀ m p q, Reads m p xs → Writable m q d → NoOverlap p n q d → Fine (Simd.Base64.forgiving_decode fi di ⟨p, n⟩ ⟨q, d⟩) m p n q d)
    (hsafe : (Simd.Base64.forgiving_decode_to_vec Pl extra fi di ⟨P, n⟩).run s.mem ≠ .ub) :
    Sim (forgiving_decode_to_vec Pl extra fi di ⟨p, n⟩ s) ((Simd.Base64.forgiving_decode_to_vec Pl extra fi di ⟨P, n⟩).run s.mem) (VecOk s P n p.buf) (BoxErr s P n p.buf) := by
  refine box_call hs hr eP hP (newVec_ret s) fun s1 p1 hm hs1 hr1 hp1 eP1 => ?_
  rw [← hm] at hx hP hsafe
  unfold Simd.Base64.forgiving_decode_to_vec at hsafe ⊢
  dsimp only at hsafe ⊢
  subst hl
  have hf := Simd.Base64.find_run fi hx
  refine Sim.bind ((find_sim1 fi hs1 hr1 eP1 (Simd.Base64.good_find fi rfl hx)).noErr (by rw [hf]; nofun)) ?_
  rintro pos _ s2 hrun ⟨rfl, h0⟩
  have hsafe := Prog.safe_next hsafe hrun
  have hm2 : s2.mem = s1.mem := by
    rw [hf] at hrun
    injection hrun with _ h; exact h.symm
  refine Sim.bind (Sim.assert _) ?_
  rintro _ _ s2 hrun2 ⟨rfl, -⟩
  have hsafe := Prog.safe_next hsafe hrun2
  have hr2 := G0_readable (by rw [eP1]; exact h0) hp1 hr1
  have hs2 := h0.sound hs1
  have eP2 := (AfterCall.place h0 hp1).trans eP1
  have hp2 := Nat.lt_of_lt_of_le hp1 h0.next
  rw [← hm2] at hx hP
  by_cases hpn : pos = xs.length
  · rw [if_pos hpn] at hsafe
    rw [if_pos hpn, if_pos hpn]
    refine Sim.bind ((decode_box_sim Pl hd _ hs2 hr2 eP2 hP rfl hx (Prog.safe_head hsafe)).mono (fun _ _ _ h => h) fun _ h => BoxErr.earlier h hm2 h0) ?_
    rintro r r' s3 - ⟨h1, h2⟩
    refine (Sim.cast (w := RVec.ofBox r') (vec_sim (E := fun _ => True) h2 hs2 h1 (GH_own hP))).mono ?_ fun _ h => h
    rintro v _ s4 ⟨rfl, h3, h4⟩
    exact VecOk.earlier ⟨h3, h4⟩ hm2 h0
  · rw [if_neg hpn] at hsafe
    rw [if_neg hpn, if_neg hpn]
    rw [← hm2] at hrun
    have key := (forgiving_tail Pl extra fi hd hs2 hr2 hp2 eP2 hP rfl hx hpn hrun hF hsafe).mono (fun _ _ _ h => VecOk.earlier h hm2 h0) (fun _ h => BoxErr.earlier h hm2 h0)
    unfold strip at key
    unfold Simd.Base64.copy_and_decode
    simp only [prog_bind, BProg.assoc, Prog.assoc] at key ⊢
    exact key

end Base64

end Simd.Borrow
