import Verif.Lemmas.BorrowUuid
/-
The forgiving decoders of base64-simd with borrow stacks.
-/
namespace Simd.Borrow
open Spec

variable {s : State} {p q P Q : Ptr} {n d : Nat}

theorem Stack.write_release {t f : Nat} {st w : Stack} (h : st.write t = some w) : Stack.write t (st.map (Item.release f)) = some (w.map (Item.release f)) := by
  have hp : ∀ it : Item, (it.release f).perm = it.perm ∧ (it.release f).tag = it.tag := fun it => by unfold Item.release; split <;> exact ⟨rfl, rfl⟩
  have hh : ∀ st : Stack, (st.map (Item.release f)).head?.map Item.perm = st.head?.map Item.perm := fun st => by
    cases st with
    | nil => rfl
    | cons it st => exact congrArg some (hp it).1
  induction st generalizing w with
  | nil => cases h
  | cons it st ih =>
    unfold Stack.write at h
    rw [List.map_cons, Stack.write, (hp it).1, (hp it).2]
    split at h
    · rename_i hg; cases h; rw [if_pos hg]; rfl
    · rename_i hg
      rw [if_neg hg]
      split at h
      · cases h
      · rename_i st' hst
        rw [ih hst]
        dsimp only
        rw [hh]
        split at h
        · rename_i hc
          cases h
          rw [if_pos ⟨hc.1, hc.2.1, by rw [hc.2.2]⟩]; rfl
        · rename_i hc
          split at h
          · cases h
          · rename_i hn
            cases h
            obtain ⟨new, hw⟩ := Stack.write_suffix hst
            have hn : it.prot = none := by simpa using hn
            rw [if_neg, if_neg]
            · unfold Item.release; rw [hn]; simp [hn]
            · intro hc'
              refine hc ⟨hc'.1, hc'.2.1, ?_⟩
              have := congrArg List.length hc'.2.2
              rw [List.length_map, List.length_map, hw, List.length_append] at this
              have : new = [] := List.length_eq_zero_iff.1 (by omega)
              rw [hw, this]; rfl

theorem Mutable.ret (h : Mutable s p n) : Mutable s.ret p n := fun b i hi => by
  obtain ⟨w, hw⟩ := Option.isSome_iff_exists.1 (h b i hi)
  show (Stack.write p.buf ((s.stack b i).map _)).isSome
  rw [Stack.write_release hw]; rfl

/-- `get_unchecked_mut(..m)` on a reborrow of the whole. -/
theorem sub_mut_sim {m : Nat} (hs : Sound s) (hm : Mutable s p n) (hmn : m ≤ n) :
    Sim ((retag .mut p n >>= fun d => call (arg .mut d n >>= fun d => retag .mut d m)) s) (.ok () s.mem)
      (fun r _ s' => AfterCall s s' (G1 (place s p) n p.buf) ∧ Derived s s' p r ∧ OnTop s' .unique r m) (fun _ => True) := by
  refine Sim.left (E := fun _ => True) (slice_mut_sim hm) ?_
  rintro d s1 hm1 ⟨h1, h2, h3⟩
  have hs1 := h1.sound hs
  have h4 := inplace_call (y := (pure () : Prog Unit)) (R := fun s' r _ => s1.next ≤ r.buf ∧ r.buf < s'.next ∧ r.off = d.off ∧ place s' r = place s1 d ∧ OnTop s' .unique r m) (body := fun d => retag .mut d m)
    (fun s a b h => ⟨h.1, h.2.1, h.2.2.1, h.2.2.2.1, OnTop.ret h.2.2.2.2⟩) hs1 (OnTop.mutable h3 (.inl rfl)) rfl fun s2 p1 hm2 hs2 hmu hlo hhi epl ht => by
      have h5 := slice_mut_sim (Spec.Mutable.mono hmu hmn)
      exact (Sim.cast (w := ()) (v := ()) (E' := fun _ => False) h5).mono (fun r _ s3 ⟨_, h6, h7, h8⟩ => ⟨(epl ▸ h6).weaken (G1_part hmn), by have := h7.lo; omega, h7.hi, h7.off.trans (congrArg Ptr.off epl :), h7.place.trans epl, h8⟩) fun _ h => h.elim
  rw [← hm1]
  exact h4.mono (fun r _ s3 ⟨h5, h6, h7, h8, h9, h10⟩ => ⟨h1.push hs (h2.place ▸ h5) (G1_new (Nat.le_refl _) h2.lo), ⟨by have := h1.next; omega, h7, h8.trans h2.off, congrArg Ptr.buf (h9.trans h2.place)⟩, h10⟩) fun _ _ => trivial

/-- Like `check_tail`, within a function that also has a destination. -/
theorem check_tail2 {β : Type} {mk : Ptr → Nat → BProg Ptr} (hmk : IsRaw mk) {K : Ptr → Prog β} (hs : Sound s) (hr : Readable s p n) (eP : place s p = P) (eQ : place s q = Q) (hq : q.buf < s.next)
    (ho : NoOverlap P n Q d) (hG : Good2 (fun p _ => K p) P n Q d s.mem) (hF : ∀ ρ a, RenE ρ (K ⟨a, P.off⟩) (K ⟨ρ a, P.off⟩)) (hu : ∀ a : Ptr, Uses' (· = a.buf) (fun _ => False) (K a)) :
    Sim ((mk p n >>= fun r => prog (K r)) s) ((K P).run s.mem) (fun v v' s' => v = v' ∧ AfterCall s s' (G0 P n p.buf)) (fun s' => AfterCall s s' (G0 P n p.buf)) := by
  subst eP
  refine Sim.left (hmk.sim hs hr) ?_
  rintro r s1 hm ⟨h1, h2, h3⟩
  rw [← hm] at hG ⊢
  exact (kern2_read (R := fun _ _ => Eq) (b := q.buf) h2.place hG hF (hu r) (by rw [h1.home _ hq, ← eQ]; rfl) (by have := h2.lo; omega) ho h3).mono
    (fun v v' s' ⟨e, _, h⟩ => ⟨e, h1.push hs h (none_or nothing_or)⟩) fun s' ⟨_, h⟩ => h1.push hs h (none_or nothing_or)

namespace Base64

theorem find_sim1 (fi : Option Isa) (hs : Sound s) (hr : Readable s p n) (eP : place s p = P)
    (hG : Good1 (fun p => Simd.Base64.find_non_ascii_whitespace fi ⟨p, n⟩) P n s.mem) :
    Sim (find_non_ascii_whitespace fi ⟨p, n⟩ s) ((Simd.Base64.find_non_ascii_whitespace fi ⟨P, n⟩).run s.mem) (fun v v' s' => v = v' ∧ AfterCall s s' (G0 P n p.buf)) (fun s' => AfterCall s s' (G0 P n p.buf)) := by
  refine check_call (R := fun _ a b => a = b) eq_ret hs hr eP fun s1 p1 hm hs1 hr1 _ hp1 eP1 => ?_
  rw [← hm] at hG
  exact check_tail (K := fun p => Simd.Base64.find_non_ascii_whitespace fi ⟨p, n⟩) (.inr rfl) hs1 hr1 eP1 hG (fun _ _ => Simd.Base64.ren_find_non_ascii_whitespace ..)
    fun a => Simd.Base64.uses_find_non_ascii_whitespace (d := ⟨a, n⟩) (by rfl) _

theorem find_sim2 (fi : Option Isa) (hs : Sound s) (hr : Readable s p n) (eP : place s p = P) (eQ : place s q = Q) (hq : q.buf < s.next) (ho : NoOverlap P n Q d)
    (hG : Good2 (fun p _ => Simd.Base64.find_non_ascii_whitespace fi ⟨p, n⟩) P n Q d s.mem) :
    Sim (find_non_ascii_whitespace fi ⟨p, n⟩ s) ((Simd.Base64.find_non_ascii_whitespace fi ⟨P, n⟩).run s.mem) (fun v v' s' => v = v' ∧ AfterCall s s' (G0 P n p.buf)) (fun s' => AfterCall s s' (G0 P n p.buf)) := by
  subst eP
  refine (call_sim (k := .shared) (G := nothing) (Q := fun v v' _ => v = v') (E := fun _ => True) (.inr rfl) hs hr fun s1 hm hs1 h => ?_).mono (fun _ _ _ h => ⟨h.2, h.1⟩) fun _ h => h.1
  rw [← hm]
  rw [← hm] at hG
  have hn : s1.next = s.next + 1 := h.next
  refine (check_tail2 (q := q) (K := fun p => Simd.Base64.find_non_ascii_whitespace fi ⟨p, n⟩) (.inr rfl) hs1 (fun b i hi => ?_) h.place_new ((h.place_old hq).trans eQ) (by omega) ho hG
    (fun _ _ => Simd.Base64.ren_find_non_ascii_whitespace ..) fun a => Simd.Base64.uses_find_non_ascii_whitespace (d := ⟨a, n⟩) (by rfl) _).mono (fun v v' s' h => ⟨h.2, h.1⟩) fun s' h => ⟨h, trivial⟩
  rw [h.place_new] at hi
  obtain ⟨rest, e, -⟩ := h.top_shared (.inl rfl) hi
  rw [e, Stack.read_new]; rfl

theorem remove_sim (fi : Option Isa) (hs : Sound s) (hm : Mutable s p n) (eP : place s p = P)
    (hG : Good1 (fun p => Simd.Base64.remove_ascii_whitespace_inplace fi ⟨p, n⟩) P n s.mem) :
    Sim (remove_ascii_whitespace_inplace fi ⟨p, n⟩ s) ((Simd.Base64.remove_ascii_whitespace_inplace fi ⟨P, n⟩).run s.mem)
      (fun r r' s' => AfterCall s s' (G1 P n p.buf) ∧ r' = ⟨P, r.len⟩ ∧ r.len ≤ n ∧ s.next ≤ r.ptr.buf ∧ r.ptr.buf < s'.next ∧ place s' r.ptr = P ∧ Mutable s' r.ptr r.len) (fun s' => AfterCall s s' (G1 P n p.buf)) := by
  refine inplace_call (R := fun s' (r r' : Slice) => r' = ⟨P, r.len⟩ ∧ r.len ≤ n ∧ s.next ≤ r.ptr.buf ∧ r.ptr.buf < s'.next ∧ place s' r.ptr = P ∧ Mutable s' r.ptr r.len)
    (fun s a b h => ⟨h.1, h.2.1, h.2.2.1, h.2.2.2.1, h.2.2.2.2.1, Mutable.ret h.2.2.2.2.2⟩) hs hm eP fun s1 p1 hmem hs1 hm1 hlo hp1 eP1 ht => ?_
  rw [← hmem] at hG
  refine Sim.bind2 (f := fun c => find_non_ascii_whitespace fi ⟨c, n⟩) (inplace_read (R := Eq) hs1 eP1 ht fun s2 c hm2 hs2 hr2 hc2 ec2 => ?_) ?_
  · exact find_sim1 fi hs2 hr2 ec2 (hm2 ▸ Good1.head (X := fun p => Simd.Base64.find_non_ascii_whitespace fi ⟨p, n⟩) hG)
  rintro pos _ s2 hrun ⟨rfl, h⟩
  have hG2 := Good1.next (X := fun p => Simd.Base64.find_non_ascii_whitespace fi ⟨p, n⟩)
    (K := fun p pos => do
      assert (pos ≤ n)
      if pos = n then pure (⟨p, n⟩ : Slice)
      else do
        padd p pos
        let rem ← Simd.Base64.remove_ascii_whitespace_fallback (p.add pos) (n - pos) (p.add pos)
        assert (rem ≤ n - pos)
        if pos + rem ≤ n then pure (⟨p, pos + rem⟩ : Slice) else .ub) hG (fun _ _ => Simd.Base64.ren_find_non_ascii_whitespace ..) hrun
  refine Sim.bind (Sim.assert _) ?_
  rintro _ _ s2 hrun ⟨rfl, hle⟩
  have hG3 := Good1.next (X := fun _ => assert (pos ≤ n)) hG2 (fun _ _ => Ren.assert _) hrun
  by_cases hpn : pos = n
  · subst hpn
    dsimp only
    rw [if_pos rfl, if_pos rfl]
    subst eP1
    refine Sim.ret ⟨h, rfl, Nat.le_refl _, hlo, Nat.lt_of_lt_of_le hp1 h.next, AfterCall.place h hp1, G1_mutable h hp1 hm1⟩
  simp only [if_neg hpn] at hG3
  dsimp only
  rw [if_neg hpn, if_neg hpn]
  have hle : pos ≤ n := of_decide_eq_true hle
  have hs2 := h.sound hs1
  subst eP1
  have hm2 := G1_mutable h hp1 hm1
  have e2 := AfterCall.place h hp1
  have key := inplace_kern (K := fun p => padd p pos >>= fun _ => Simd.Base64.remove_ascii_whitespace_fallback (p.add pos) (n - pos) (p.add pos))
    (C := fun _ rem => prog (assert (rem ≤ n - pos)) >>= fun _ =>
      if pos + rem ≤ n then do
        let d ← retag .mut p1 n
        let r ← call do
          let d ← arg .mut d n
          retag .mut d (pos + rem)
        pure ⟨r, pos + rem⟩
      else prog .ub)
    (o := fun rem => assert (rem ≤ n - pos) >>= fun _ => if pos + rem ≤ n then pure (⟨place s1 p1, pos + rem⟩ : Slice) else .ub)
    (Q := fun r r' s' => AfterCall s1 s' (G1 (place s1 p1) n p1.buf) ∧ r' = ⟨place s1 p1, r.len⟩ ∧ r.len ≤ n ∧ s.next ≤ r.ptr.buf ∧ r.ptr.buf < s'.next ∧ place s' r.ptr = place s1 p1 ∧ Mutable s' r.ptr r.len)
    (E := fun s' => AfterCall s1 s' (G1 (place s1 p1) n p1.buf)) hs2 hm2 e2 (Good1.head (K := fun p rem => assert (rem ≤ n - pos) >>= fun _ => if pos + rem ≤ n then pure (⟨p, pos + rem⟩ : Slice) else .ub)
      (by simp only [Prog.assoc]; exact hG3)) (fun ρ a => Ren.seq (Ren.padd _ _ _) fun _ => Simd.Base64.ren_remove_ascii_whitespace_fallback ..)
    (fun a => (Uses.padd _ _).seq fun _ => Simd.Base64.uses_remove_ascii_whitespace_fallback (by rfl) (by rfl) _) (fun rem r s3 h3 h4 h5 h6 h7 hrun => ?_) fun s3 h3 => h.trans h3
  · simp only [prog_bind, BProg.assoc, Prog.assoc] at key
    exact key
  refine Sim.bind (Sim.assert _) ?_
  rintro _ _ s3 - ⟨rfl, hrem⟩
  have hrem := of_decide_eq_true hrem
  have hpr : pos + rem ≤ n := by omega
  rw [if_pos hpr, if_pos hpr]
  have hp2 : p1.buf < s2.next := Nat.lt_of_lt_of_le hp1 h.next
  have hs3 := h3.sound hs2
  rw [← e2] at h3
  have hm3 := G1_mutable h3 hp2 hm2
  have e3 := (AfterCall.place h3 hp2).trans e2
  rw [← BProg.assoc]
  refine Sim.left (sub_mut_sim hs3 hm3 hpr) ?_
  rintro r s4 hm4 ⟨h8, h9, h10⟩
  rw [← hm4]
  rw [e3] at h8
  rw [e2] at h3
  refine Sim.ret ⟨h.trans (h3.trans h8), rfl, hpr, ?_, h9.hi, h9.place.trans e3, OnTop.mutable h10 (.inl rfl)⟩
  have := h.next
  have := h3.next
  have := h9.lo
  dsimp only
  omega

theorem forgiving_inplace_sim (fi di : Option Isa) (hs : Sound s) (hm : Mutable s p n) (eP : place s p = P)
    (hG : Good1 (fun p => Simd.Base64.remove_ascii_whitespace_inplace fi ⟨p, n⟩) P n s.mem)
    (hG' : ∀ k M, (Simd.Base64.remove_ascii_whitespace_inplace fi ⟨P, n⟩).run s.mem = .ok ⟨P, k⟩ M → Good1 (fun p => Simd.Base64.decode_inplace di Simd.Base64.STANDARD_FORGIVING ⟨p, k⟩) P k M) :
    Sim (forgiving_decode_inplace fi di ⟨p, n⟩ s) ((Simd.Base64.forgiving_decode_inplace fi di ⟨P, n⟩).run s.mem) (fun v v' s' => AfterCall s s' (G1 P n p.buf) ∧ RetB s' v v')
      (fun s' => AfterCall s s' (G1 P n p.buf)) := by
  refine inplace_call retB_ret hs hm eP fun s1 p1 hmem hs1 hm1 _ hp1 eP1 ht => ?_
  rw [← hmem] at hG hG'
  subst eP1
  refine Sim.left (slice_mut_sim hm1) ?_
  rintro p2 s2 hmem2 ⟨h2, h2d, h2t⟩
  rw [← hmem2] at hG hG' ⊢
  have hs2 := h2.sound hs1
  have e2 : place s2 p2 = place s1 p1 := h2d.place
  refine Sim.bind ((remove_sim fi hs2 (OnTop.mutable h2t (.inl rfl)) e2 hG).mono (fun _ _ _ h => h) fun s3 h3 => h2.push hs1 h3 (G1_new (Nat.le_refl _) h2d.lo)) ?_
  rintro r _ s3 hrun ⟨h3, rfl, hrn, hr2, hr3, er, hmr⟩
  have h13 : AfterCall s1 s3 (G1 (place s1 p1) n p1.buf) := h2.push hs1 h3 (G1_new (Nat.le_refl _) h2d.lo)
  refine Sim.left (slice_mut_sim hmr) ?_
  rintro p4 s4 hmem4 ⟨h4, h4d, h4t⟩
  rw [← hmem4] at hrun ⊢
  have h14 : AfterCall s1 s4 (G1 (place s1 p1) n p1.buf) := h13.push hs1 (er ▸ h4) (G1_new hrn (by have := h2.next; omega))
  have hpush : ∀ s', AfterCall s4 s' (G1 (place s1 p1) r.len p4.buf) → AfterCall s1 s' (G1 (place s1 p1) n p1.buf) := fun s' h' => h14.push hs1 h' (G1_new hrn (by have := h13.next; have := h4d.lo; omega))
  exact (decode_inplace_sim di _ (h14.sound hs1) (OnTop.mutable h4t (.inl rfl)) (h4d.place.trans er) (hG' _ _ hrun)).mono (fun v v' s' h => ⟨hpush _ h.1, h.2⟩) fun s' h => hpush _ h

/-- The copying part of `forgiving_decode`. -/
def strip (n pos : Nat) (p q : Ptr) : Prog Nat := do
  Simd.Base64.copy_nonoverlapping p q pos
  padd p pos
  padd q pos
  Simd.Base64.remove_ascii_whitespace_fallback (p.add pos) (n - pos) (q.add pos)

theorem ren_strip (ρ : Nat → Nat) (k pos a b o o' : Nat) : RenE ρ (strip k pos ⟨a, o⟩ ⟨b, o'⟩) (strip k pos ⟨ρ a, o⟩ ⟨ρ b, o'⟩) :=
  Ren.seq (Simd.Base64.ren_copy_nonoverlapping ..) fun _ => Ren.seq (Ren.padd _ _ _) fun _ => Ren.seq (Ren.padd _ _ _) fun _ => Simd.Base64.ren_remove_ascii_whitespace_fallback ..

theorem uses_strip (k pos : Nat) (a b : Ptr) : Uses' (· = a.buf) (· = b.buf) (strip k pos a b) := by
  have h : Uses' (· = a.buf) (· = b.buf) (Simd.Base64.copy_nonoverlapping a b pos) := by
    unfold Simd.Base64.copy_nonoverlapping
    split
    · exact Uses.ub
    · exact (Uses.loadBytes (by rfl) _).seq fun _ => Uses.storeBytes (by rfl) _
  exact h.seq fun _ => (Uses.padd _ _).seq fun _ => (Uses.padd _ _).seq fun _ => Simd.Base64.uses_remove_ascii_whitespace_fallback (by rfl) (by rfl) _

theorem forgiving_sim (fi di : Option Isa) (hs : Sound s) (hr : Readable s p n) (hm : Mutable s q d) (hq : q.buf < s.next) (eP : place s p = P) (eQ : place s q = Q)
    (ho : NoOverlap P n Q d) (hG : Good2 (fun p q => Simd.Base64.forgiving_decode fi di ⟨p, n⟩ ⟨q, d⟩) P n Q d s.mem)
    (hG' : ∀ pos rem M, n ≤ d → pos ≠ n → (Simd.Base64.find_non_ascii_whitespace fi ⟨P, n⟩).run s.mem = .ok pos s.mem → (strip n pos P Q).run s.mem = .ok rem M →
      Good1 (fun p => Simd.Base64.decode_inplace di Simd.Base64.STANDARD_FORGIVING ⟨p, pos + rem⟩) Q (pos + rem) M) :
    Sim (forgiving_decode fi di ⟨p, n⟩ ⟨q, d⟩ s) ((Simd.Base64.forgiving_decode fi di ⟨P, n⟩ ⟨Q, d⟩).run s.mem) (fun v v' s' => AfterCall s s' (G2 P n p.buf Q d q.buf) ∧ RetB s' v v')
      (fun s' => AfterCall s s' (G2 P n p.buf Q d q.buf)) := by
  refine copy_call retB_ret hs hr hm hq eP eQ ho fun s1 p1 hmem hs1 hr1 hm1 hq1 hp1 eP1 eQ1 => ?_
  rw [← hmem] at hG hG'
  refine Sim.bind (Sim.ensure _ (AfterCall.refl _ _)) ?_
  rintro _ _ s1 hrun ⟨rfl, hnd⟩
  have hnd : n ≤ d := of_decide_eq_true hnd
  have hG2 := Good2.next (X := fun _ _ => ensure (n ≤ d)) (K := fun p q _ => do
    let pos ← Simd.Base64.find_non_ascii_whitespace fi ⟨p, n⟩
    assert (pos ≤ n)
    if pos = n then Simd.Base64.decode di Simd.Base64.STANDARD_FORGIVING ⟨p, n⟩ ⟨q, d⟩ else Simd.Base64.copy_and_decode di ⟨p, n⟩ pos q) hG ho (fun _ _ _ => Ren.ensure _) hrun
  refine Sim.bind ((find_sim2 fi hs1 hr1 eP1 eQ1 hq1 ho (Good2.head (X := fun p _ => Simd.Base64.find_non_ascii_whitespace fi ⟨p, n⟩) hG2)).mono (fun _ _ _ h => h) fun _ h => h.weaken G2_src) ?_
  rintro pos _ s2 hfind ⟨rfl, h⟩
  have hG3 := Good2.next (X := fun p _ => Simd.Base64.find_non_ascii_whitespace fi ⟨p, n⟩) (K := fun p q pos => do
    assert (pos ≤ n)
    if pos = n then Simd.Base64.decode di Simd.Base64.STANDARD_FORGIVING ⟨p, n⟩ ⟨q, d⟩ else Simd.Base64.copy_and_decode di ⟨p, n⟩ pos q) hG2 ho (fun _ _ _ => Simd.Base64.ren_find_non_ascii_whitespace ..) hfind
  have hmm : s2.mem = s1.mem := (Simd.Base64.uses_find_non_ascii_whitespace (L := fun _ => True) trivial _).keeps hfind
  refine Sim.bind (Sim.assert _) ?_
  rintro _ _ s2 hrun' ⟨rfl, hle⟩
  have hle : pos ≤ n := of_decide_eq_true hle
  have hG4 := Good2.next (X := fun _ _ => assert (pos ≤ n)) hG3 ho (fun _ _ _ => Ren.assert _) hrun'
  have h' : AfterCall s1 s2 (G2 P n p1.buf Q d q.buf) := h.weaken G2_src
  subst eP1 eQ1
  have hs2 := h.sound hs1
  have hr2 := G2_readable h' hp1 hr1
  have hm2 := G2_mutable ho h' hq1 hm1
  have hq2 := Nat.lt_of_lt_of_le hq1 h.next
  have eP2 := AfterCall.place h hp1
  have eQ2 := AfterCall.place h hq1
  dsimp only
  by_cases hpn : pos = n
  · simp only [if_pos hpn] at hG4
    rw [if_pos hpn, if_pos hpn]
    exact (decode_sim di _ hs2 hr2 hm2 hq2 eP2 eQ2 ho hG4).mono (fun _ _ _ h'' => ⟨h'.trans h''.1, h''.2⟩) fun _ h'' => h'.trans h''
  simp only [if_neg hpn] at hG4
  rw [if_neg hpn, if_neg hpn]
  rw [← hmm] at hG' hfind
  have hG5 : Good2 (strip n pos) (place s1 p1) n (place s1 q) d s2.mem := Good2.head (K := fun _ q rem => assert (rem ≤ n - pos) >>= fun _ => Simd.Base64.decode_inplace di Simd.Base64.STANDARD_FORGIVING ⟨q, pos + rem⟩)
    (by unfold strip; simp only [Prog.assoc]; exact hG4)
  have key := Sim.bind2 (f := fun r => prog (strip n pos r q)) (h := fun rem => prog (assert (rem ≤ n - pos)) >>= fun _ => slice_mut q (pos + rem) >>= fun data => decode_inplace di Simd.Base64.STANDARD_FORGIVING ⟨data, pos + rem⟩)
    (g := fun rem => assert (rem ≤ n - pos) >>= fun _ => Simd.Base64.decode_inplace di Simd.Base64.STANDARD_FORGIVING ⟨place s1 q, pos + rem⟩)
    (Q' := fun v v' s' => AfterCall s1 s' (G2 (place s1 p1) n p1.buf (place s1 q) d q.buf) ∧ RetB s' v v') (E := fun s' => AfterCall s1 s' (G2 (place s1 p1) n p1.buf (place s1 q) d q.buf))
    ((copy_kern (.inl rfl) hs2 hr2 hm2 hq2 eP2 eQ2 ho hG5 (fun _ _ _ => ren_strip ..) fun _ _ => uses_strip ..).mono (fun _ _ _ h => h) fun _ h'' => h'.trans h'') ?_
  · unfold strip at key
    simp only [prog_bind, BProg.assoc, Prog.assoc] at key
    exact key
  rintro rem _ s3 hrun3 ⟨rfl, h3⟩
  refine Sim.bind (Sim.assert _) ?_
  rintro _ _ s3 - ⟨rfl, hrem⟩
  have hrem : rem ≤ n - pos := of_decide_eq_true hrem
  have hpd : pos + rem ≤ d := by omega
  have h13 := h'.trans h3
  have hm3 := (G2_mutable ho h13 hq1 hm1).mono hpd
  refine Sim.left (slice_mut_sim hm3) ?_
  rintro data s4 hmem4 ⟨h4, h4d, h4t⟩
  rw [← hmem4] at hrun3 ⊢
  have e3 : place s3 q = place s1 q := AfterCall.place h13 hq1
  rw [e3] at h4
  have h14 := h13.push hs1 h4 (none_or (G2_dst ho hpd))
  have hpush : ∀ s', AfterCall s4 s' (G1 (place s1 q) (pos + rem) data.buf) → AfterCall s1 s' (G2 (place s1 p1) n p1.buf (place s1 q) d q.buf) := fun s' h5 => h14.push hs1 h5 fun b i => by
    by_cases hb : In (place s1 q) (pos + rem) b i
    · exact .inr (.inr (.inl ⟨_, _, (over_out fun h' => noOverlap_pt ho h' (in_mono hpd hb)).trans (over_in (in_mono hpd hb)), over_in hb, by have := h13.next; have := h4d.lo; omega⟩))
    · exact .inl (over_out hb)
  exact (decode_inplace_sim di _ (h14.sound hs1) (OnTop.mutable h4t (.inl rfl)) (h4d.place.trans e3) (hG' pos rem _ hnd hpn hfind hrun3)).mono (fun v v' s' h => ⟨hpush _ h.1, h.2⟩) fun s' h => hpush _ h

end Base64

end Simd.Borrow
