import Verif.Lemmas.TreeBox
import Verif.Lemmas.BorrowBoxFns
import Verif.Props.ConcurrentAlloc
/-
Every function that allocates a box does with borrow trees what it does without them.
-/
namespace Simd.Tree
open Spec
open Borrow (Good1 Good2 noOverlap_pt noOverlap_new)

variable {α β γ δ : Type} {s s1 s2 : State} {p q P Q : Ptr} {n m d t N : Nat} {G : Nat → Nat → Loan}

theorem nothing_readable (h : AfterCall s s1 nothing) (hr : Readable s p n) : Readable s1 p n := h.readable (fun _ _ _ => .inl rfl) hr

theorem after_fill (hs : Sound s) (ht : t < s.next) (hP : P.buf < s.mem.nbuf) (hA : AfterCall s s1 nothing) (hN : NewOwner s s1 q m) (h : Filled s1 s2 P n t ⟨s.mem.nbuf, 0⟩ m q.buf) :
    AfterCall s s2 (G0 P n t) ∧ NewOwner s s2 q m := by
  have hA' : AfterCall s s1 (G0 P n t) := hA.weaken nothing_or
  refine ⟨hA'.pushN h.after (tag0 ht) (fits_fill hs (Nat.le_refl _)), hN.step h.after (fun b i hi => ?_) h.nbuf h.size⟩
  exact .inr ((over_out fun h' => by have := hi.1; have := h'.1; simp only at *; omega).trans (over_in hi))

/-- The code after the pointers have been made. -/
theorem box_tail {K : Prog Unit} {b : Slice} (hs : Sound s) (ht : t < s.next) (hP : P.buf < s.mem.nbuf) (hA : AfterCall s s1 (nothing)) (hN : NewOwner s s1 b.ptr b.len) (hl : b.len = m)
    (hu : (K >>= fun _ => Simd.assume_init ⟨⟨s.mem.nbuf, 0⟩, m⟩).run s1.mem ≠ .ub) (x : Prog Unit) (s2 : State)
    (h : Sim (prog x s2) (K.run s1.mem) (fun v v' s' => (v = v' ∧ Filled s1 s' P n t ⟨s.mem.nbuf, 0⟩ m b.ptr.buf) ∧ K.run s1.mem = .ok v' s'.mem) (fun s' => Filled s1 s' P n t ⟨s.mem.nbuf, 0⟩ m b.ptr.buf)) :
    Sim ((orDrop (prog x) (drop_box b) >>= fun _ => assume_init b) s2) ((K >>= fun _ => Simd.assume_init ⟨⟨s.mem.nbuf, 0⟩, m⟩).run s1.mem)
      (fun r r' s' => AfterCall s s' (G0 P n t) ∧ NewBox s s' r r') (fun s' => AfterCall s s' (G0 P n t) ∧ Clear s s') := by
  subst hl
  refine Sim.bind (Sim.orDrop (E'' := fun _ => True) h fun s' hf => ?_) ?_
  · obtain ⟨h1, h2⟩ := after_fill hs ht hP hA hN hf
    exact (h2.drop rfl hs h1 (tag0 ht)).mono (fun _ _ _ h => h.2) fun _ h => h
  · rintro _ _ s' hrun ⟨⟨rfl, hf⟩, -⟩
    obtain ⟨h1, h2⟩ := after_fill hs ht hP hA hN hf
    have hu' := Prog.safe_next hu hrun
    exact init_sim h2 hs h1 (tag0 ht) rfl hu'

/-- The same where `K` does not fail. -/
theorem box_tail' {K : Prog Unit} {b : Slice} (hs : Sound s) (ht : t < s.next) (hP : P.buf < s.mem.nbuf) (hA : AfterCall s s1 (nothing)) (hN : NewOwner s s1 b.ptr b.len) (hl : b.len = m)
    (hu : (K >>= fun _ => Simd.assume_init ⟨⟨s.mem.nbuf, 0⟩, m⟩).run s1.mem ≠ .ub) (hne : ∀ m', (K >>= fun _ => Simd.assume_init ⟨⟨s.mem.nbuf, 0⟩, m⟩).run s1.mem ≠ .err m') (x : Prog Unit) (s2 : State)
    (h : Sim (prog x s2) (K.run s1.mem) (fun v v' s' => (v = v' ∧ Filled s1 s' P n t ⟨s.mem.nbuf, 0⟩ m b.ptr.buf) ∧ K.run s1.mem = .ok v' s'.mem) (fun s' => Filled s1 s' P n t ⟨s.mem.nbuf, 0⟩ m b.ptr.buf)) :
    Sim ((prog x >>= fun _ => assume_init b >>= fun b => boxed_str b) s2) ((K >>= fun _ => Simd.assume_init ⟨⟨s.mem.nbuf, 0⟩, m⟩).run s1.mem)
      (fun r r' s' => AfterCall s s' (G0 P n t) ∧ NewBox s s' r r') (fun s' => AfterCall s s' (G0 P n t) ∧ Clear s s') := by
  subst hl
  refine Sim.bind (h.noErr (Prog.noerr_head hne)) ?_
  rintro _ _ s' hrun ⟨⟨rfl, hf⟩, -⟩
  obtain ⟨h1, h2⟩ := after_fill hs ht hP hA hN hf
  have hu' := Prog.safe_next hu hrun
  refine Sim.after (E' := fun _ => True) (init_sim h2 hs h1 (tag0 ht) rfl hu') ?_
  rintro a b s3 ⟨h3, h4⟩
  exact str_sim (E := fun _ => True) h4 hs h3 (tag0 ht)

/-- The end of `decode_to_boxed_bytes` of base32-simd and hex-simd. -/
theorem boxA {mk : Ptr → Nat → BProg Ptr} (hmk : IsRaw mk) {K : Ptr → Ptr → Prog Unit} (Pl : Plat) (hs : Sound s) (hr : Readable s p n) (hp : p.buf < s.next) (eP : place s p = P) (hP : P.buf < s.mem.nbuf)
    (hG : Good2 K P n ⟨s.mem.nbuf, 0⟩ m (s.mem.alloc m)) (hF : ∀ ρ a b, RenE ρ (K ⟨a, P.off⟩ ⟨b, 0⟩) (K ⟨ρ a, P.off⟩ ⟨ρ b, 0⟩)) (hu : ∀ a b : Ptr, Uses' (· = a.buf) (· = b.buf) (K a b))
    (hsafe : (Simd.alloc_uninit_bytes Pl m >>= fun b => K P b.ptr >>= fun _ => Simd.assume_init b).run s.mem ≠ .ub) :
    Sim ((alloc_uninit_bytes Pl m >>= fun buf => mk p n >>= fun r => as_mut_ptr buf.ptr buf.len >>= fun r' => orDrop (prog (K r r')) (drop_box buf) >>= fun _ => assume_init buf) s)
      ((Simd.alloc_uninit_bytes Pl m >>= fun b => K P b.ptr >>= fun _ => Simd.assume_init b).run s.mem)
      (fun r r' s' => AfterCall s s' (G0 P n p.buf) ∧ NewBox s s' r r') (fun s' => AfterCall s s' (G0 P n p.buf) ∧ Clear s s') := by
  refine Sim.bind (alloc_uninit_sim Pl hs (Prog.safe_head hsafe)) ?_
  rintro buf _ s1 hrun ⟨hl, rfl, hm, hA, hN⟩
  subst hl
  have hu' := Prog.safe_next hsafe hrun
  rw [← hm] at hG
  refine fillA_sim hmk (Z := fun x => orDrop (prog x) (drop_box buf) >>= fun _ => assume_init buf) hA.sound (nothing_readable hA hr) hN.mutable hN.hi ((AfterCall.place hA hp).trans eP) hN.place_eq
    (noOverlap_new hP) hG hF hu (box_tail hs hp hP hA hN rfl hu')

/-- The end of `decode_to_boxed_bytes` of base64-simd. -/
theorem boxB {mk : Ptr → Nat → BProg Ptr} (hmk : IsRaw mk) {K : Ptr → Ptr → Prog Unit} (Pl : Plat) (hs : Sound s) (hr : Readable s p n) (hp : p.buf < s.next) (eP : place s p = P) (hP : P.buf < s.mem.nbuf)
    (hG : Good2 K P n ⟨s.mem.nbuf, 0⟩ m (s.mem.alloc m)) (hF : ∀ ρ a b, RenE ρ (K ⟨a, P.off⟩ ⟨b, 0⟩) (K ⟨ρ a, P.off⟩ ⟨ρ b, 0⟩)) (hu : ∀ a b : Ptr, Uses' (· = a.buf) (· = b.buf) (K a b))
    (hsafe : (Simd.alloc_uninit_bytes Pl m >>= fun b => K P b.ptr >>= fun _ => Simd.assume_init b).run s.mem ≠ .ub) :
    Sim ((alloc_uninit_bytes Pl m >>= fun buf => as_mut_ptr buf.ptr buf.len >>= fun r' => mk p n >>= fun r => orDrop (prog (K r r')) (drop_box buf) >>= fun _ => assume_init buf) s)
      ((Simd.alloc_uninit_bytes Pl m >>= fun b => K P b.ptr >>= fun _ => Simd.assume_init b).run s.mem)
      (fun r r' s' => AfterCall s s' (G0 P n p.buf) ∧ NewBox s s' r r') (fun s' => AfterCall s s' (G0 P n p.buf) ∧ Clear s s') := by
  refine Sim.bind (alloc_uninit_sim Pl hs (Prog.safe_head hsafe)) ?_
  rintro buf _ s1 hrun ⟨hl, rfl, hm, hA, hN⟩
  subst hl
  have hu' := Prog.safe_next hsafe hrun
  rw [← hm] at hG
  refine fillB_sim hmk (Z := fun x => orDrop (prog x) (drop_box buf) >>= fun _ => assume_init buf) hA.sound (nothing_readable hA hr) (Nat.lt_of_lt_of_le hp hA.next) hN.mutable ((AfterCall.place hA hp).trans eP) hN.place_eq
    (noOverlap_new hP) hG hF hu (box_tail hs hp hP hA hN rfl hu')

/-- The end of `encode_to_boxed_str`. -/
theorem boxE {mk : Ptr → Nat → BProg Ptr} (hmk : IsRaw mk) {K : Ptr → Ptr → Prog Unit} (Pl : Plat) (hs : Sound s) (hr : Readable s p n) (hp : p.buf < s.next) (eP : place s p = P) (hP : P.buf < s.mem.nbuf)
    (hG : Good2 K P n ⟨s.mem.nbuf, 0⟩ m (s.mem.alloc m)) (hF : ∀ ρ a b, RenE ρ (K ⟨a, P.off⟩ ⟨b, 0⟩) (K ⟨ρ a, P.off⟩ ⟨ρ b, 0⟩)) (hu : ∀ a b : Ptr, Uses' (· = a.buf) (· = b.buf) (K a b))
    (hsafe : (Simd.alloc_uninit_bytes Pl m >>= fun b => K P b.ptr >>= fun _ => Simd.assume_init b).run s.mem ≠ .ub)
    (hne : ∀ m', (Simd.alloc_uninit_bytes Pl m >>= fun b => K P b.ptr >>= fun _ => Simd.assume_init b).run s.mem ≠ .err m') :
    Sim ((alloc_uninit_bytes Pl m >>= fun buf => mk p n >>= fun r => as_mut_ptr buf.ptr buf.len >>= fun r' => prog (K r r') >>= fun _ => assume_init buf >>= fun b => boxed_str b) s)
      ((Simd.alloc_uninit_bytes Pl m >>= fun b => K P b.ptr >>= fun _ => Simd.assume_init b).run s.mem)
      (fun r r' s' => AfterCall s s' (G0 P n p.buf) ∧ NewBox s s' r r') (fun s' => AfterCall s s' (G0 P n p.buf) ∧ Clear s s') := by
  refine Sim.bind (alloc_uninit_sim Pl hs (Prog.safe_head hsafe)) ?_
  rintro buf _ s1 hrun ⟨hl, rfl, hm, hA, hN⟩
  subst hl
  have hu' := Prog.safe_next hsafe hrun
  have hne' := Prog.noerr_next hne hrun
  rw [← hm] at hG
  refine fillA_sim hmk (Z := fun x => prog x >>= fun _ => assume_init buf >>= fun b => boxed_str b) hA.sound (nothing_readable hA hr) hN.mutable hN.hi ((AfterCall.place hA hp).trans eP) hN.place_eq
    (noOverlap_new hP) hG hF hu (box_tail' hs hp hP hA hN rfl hu' hne')

end Simd.Tree
