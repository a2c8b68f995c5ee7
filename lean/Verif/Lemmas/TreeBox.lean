import Verif.Lemmas.TreeOwn
/-
Functions that allocate a box, with borrow trees.
-/
namespace Simd.Tree
open Spec
open Borrow (Good1 Good2 noOverlap_pt)

variable {α β γ δ : Type} {s s1 s2 : State} {p q P Q : Ptr} {n m d t N : Nat} {G : Nat → Nat → Loan}

/-! ### Loans -/

theorem Sound.has_lt (hs : Sound s) {b u : Nat} (hu : s.Has b u) : b < s.mem.nbuf := by rw [← hu.2]; exact hs.alloc u hu.1

/-- What is done to new allocations is not seen by the tags there were before. -/
theorem fits_new {r : Nat} (hs : Sound s) (hQ : s.mem.nbuf ≤ Q.buf) (b i u : Nat) (hu : s.Has b u) : Fits s s1 (G b i) (G1 Q m r b i) :=
  .inl (over_out fun h => by have := hs.has_lt hu; have := h.1; omega)

theorem fits_fill {u : Nat} (hs : Sound s) (hQ : s.mem.nbuf ≤ Q.buf) (b i v : Nat) (hv : s.Has b v) : Fits s s1 (G0 P n t b i) (G2 P n t Q d u b i) := by
  by_cases h : In P n b i
  · exact .inr (.inl ((over_in h).trans (over_in h).symm))
  · rw [show G2 P n t Q d u b i = over Q d (.excl u) nothing b i from over_out h]
    exact fits_new hs hQ b i v hv

/-- Lending the source and the destination with newer tags. -/
theorem G2_new2 {r u v : Nat} (hr : Made s s1 t r) (hv : Made s s1 u v) (b i : Nat) : Fits s s1 (G2 P n t Q d u b i) (G2 P n r Q d v b i) := by
  by_cases h : In P n b i
  · exact .inr (.inr (.inr (.inl ⟨t, r, .inr (over_in h), over_in h, hr⟩)))
  · rw [show G2 P n t Q d u b i = over Q d (.excl u) nothing b i from over_out h, show G2 P n r Q d v b i = over Q d (.excl v) nothing b i from over_out h]
    exact G1_new (Nat.le_refl _) hv b i

/-! ### The owner of the new allocation -/

/-- `q` owns the `m` bytes of the only allocation made since `s`. -/
structure NewOwner (s s' : State) (q : Ptr) (m : Nat) : Prop where
  lo : s.next ≤ q.buf
  hi : q.buf < s'.next
  off : q.off = 0
  home : s'.home q.buf = s.mem.nbuf
  nbuf : s'.mem.nbuf = s.mem.nbuf + 1
  size : s'.mem.size s.mem.nbuf = m
  mutable : Mutable s' q m

namespace NewOwner

theorem place_eq (h : NewOwner s s1 q m) : place s1 q = ⟨s.mem.nbuf, 0⟩ := by
  unfold place; rw [h.home, h.off]

/-- The owner still owns after a step that used at most the owner's tag. -/
theorem step (h : NewOwner s s1 q m) (h' : AfterCall s1 s2 G) (hG : ∀ b i, In ⟨s.mem.nbuf, 0⟩ m b i → G b i = .none ∨ G b i = .excl q.buf) (hn : s2.mem.nbuf = s1.mem.nbuf) (hz : s2.mem.size = s1.mem.size) :
    NewOwner s s2 q m :=
  ⟨h.lo, Nat.lt_of_lt_of_le h.hi h'.next, h.off, (h'.home _ h.hi).trans h.home, hn.trans h.nbuf, by rw [hz]; exact h.size, h'.mutable (by rw [h.place_eq]; exact fun b i hi => (hG b i hi).imp id .inr) h.mutable⟩

/-- Another owner made from the owner. -/
theorem derive (h : NewOwner s s1 q m) {r : Ptr} (hlo : s.next ≤ s1.next) (hd : Derived s1 s2 q r) (hm : s2.mem = s1.mem) (hmu : Mutable s2 r m) : NewOwner s s2 r m :=
  ⟨Nat.le_trans hlo hd.lo, hd.hi, hd.off.trans h.off, hd.home.trans h.home, by rw [hm]; exact h.nbuf, by rw [hm]; exact h.size, hmu⟩

theorem owns (h : NewOwner s s1 q m) (hs : Sound s) (h' : AfterHeap s s1 G) : Owns s1 q m := by
  refine ⟨h.off, by rw [h.home]; exact h.size, h.mutable, fun u hu => ?_⟩
  by_cases hn : u < s.next
  · have h1 : s1.home u = s.home u := h'.home u hn
    have h2 := hu.2
    have := hs.alloc u hn
    rw [h1, h.home] at h2
    omega
  · exact h'.fresh u (by omega)

theorem back {s3 : State} (h : NewOwner s1 s2 q m) (hb : Back s2 s3) (hm : s1.mem = s.mem) (hn : s.next ≤ s1.next) : NewOwner s s3 q m := by
  obtain ⟨-, a2, a3, -, a5, -⟩ := hb.facts
  exact ⟨Nat.le_trans hn h.lo, by rw [a3]; exact h.hi, h.off, by rw [a5, ← hm]; exact h.home, by rw [a2, ← hm]; exact h.nbuf, by rw [a2, ← hm]; exact h.size, hb.mutable h.mutable⟩

/-- Dropping the owner. -/
theorem drop {x : BProg Unit} (hx : x = if m = 0 then pure () else dealloc q m) (h : NewOwner s s1 q m) (hs : Sound s) (h' : AfterCall s s1 G) (hG : ∀ b i t, Of t (G b i) → t < s.next) {E : State → Prop} :
    Sim (x s1) (.ok () s1.mem) (fun _ _ s2 => s2.mem = s1.mem ∧ AfterCall s s2 G ∧ Clear s s2) E := by
  have := drop_sim (E := E) hx h'.sound (h.owns hs h'.heap)
  cases hx' : x s1 <;> rw [hx'] at this <;> first | exact this.elim | skip
  rename_i s2
  obtain ⟨e, h1, h2, h3⟩ := this
  rw [h.place_eq] at h1
  rw [h.home] at h2 h3
  refine ⟨e, e, (h'.heap.pushN h1 hG (fits_new hs (Nat.le_refl _))).call hs fun b hb => ?_, fun b hb hb' => ?_⟩
  · rw [h3 b (by omega)]; exact h'.kept b hb
  · rw [e, h.nbuf] at hb'
    rw [show b = s.mem.nbuf by omega]; exact h2

end NewOwner

/-! ### Allocation -/

/-- The state after an allocation. -/
def State.allocated (s : State) (n : Nat) : State :=
  { s with
    mem := s.mem.alloc n
    home := fun t => if t = s.next then s.mem.nbuf else s.home t
    next := s.next + 1
    up := fun t u => if t = s.next then u = s.next else s.up t u
    cell := fun b i u => if u = s.next then ⟨.active, true⟩ else s.cell b i u
    freed := fun b => if b = s.mem.nbuf then false else s.freed b }

theorem alloc_eq (n : Nat) (s : State) : alloc n s = .ok ⟨s.next, 0⟩ (State.allocated s n) := rfl

theorem sound_alloc (hs : Sound s) (n : Nat) : Sound (State.allocated s n) := by
  have hn : (State.allocated s n).next = s.next + 1 := rfl
  have up_new : ∀ u, (State.allocated s n).up s.next u = decide (u = s.next) := fun u => if_pos rfl
  have up_old : ∀ {t}, t < s.next → ∀ u, (State.allocated s n).up t u = s.up t u := fun ht u => if_neg (by omega)
  have home_old : ∀ {t}, t < s.next → (State.allocated s n).home t = s.home t := fun ht => if_neg (by omega)
  refine ⟨fun u hu => ?_, fun t ht => ?_, fun t ht => ?_, fun t u ht hu => ?_, fun t u ht hu => ?_, fun t u v ht hu hv => ?_, fun t u v ht hu hv => ?_⟩
  · exact Nat.lt_succ_of_lt (hs.guard u hu)
  · show (State.allocated s n).home t < s.mem.nbuf + 1
    by_cases e : t = s.next
    · rw [show (State.allocated s n).home t = s.mem.nbuf from if_pos e]; omega
    · rw [home_old (by omega)]; exact Nat.lt_succ_of_lt (hs.alloc t (by omega))
  · by_cases e : t = s.next
    · subst e; rw [up_new]; exact decide_eq_true rfl
    · rw [up_old (by omega)]; exact hs.self t (by omega)
  · by_cases e : t = s.next
    · subst e; rw [up_new, decide_eq_true_iff] at hu; omega
    · rw [up_old (by omega)] at hu; exact hs.old t u (by omega) hu
  · by_cases e : t = s.next
    · subst e; rw [up_new, decide_eq_true_iff] at hu; rw [hu]
    · rw [up_old (by omega)] at hu
      have := hs.old t u (by omega) hu
      rw [home_old (by omega), home_old (by omega)]; exact hs.home t u (by omega) hu
  · by_cases e : t = s.next
    · subst e; rw [up_new, decide_eq_true_iff] at hu; rw [← hu]; rw [hu] at hv ⊢; exact hv
    · rw [up_old (by omega)] at hu ⊢
      have := hs.old t u (by omega) hu
      rw [up_old (by omega)] at hv
      exact hs.trans t u v (by omega) hu hv
  · by_cases e : t = s.next
    · subst e
      have hu' := hu
      rw [up_new, decide_eq_true_iff] at hu'
      rw [hu']; exact .inl hv
    · rw [up_old (by omega)] at hu hv
      have := hs.old t u (by omega) hu
      have := hs.old t v (by omega) hv
      rw [up_old (by omega), up_old (by omega)]; exact hs.line t u v (by omega) hu hv

theorem after_alloc (hs : Sound s) (n : Nat) : AfterCall s (State.allocated s n) nothing := by
  refine ⟨sound_alloc hs n, Nat.le_succ _, rfl, (AfterCall.refl hs nothing).fresh, fun t ht => if_neg (by omega), fun t ht => funext fun u => if_neg (by omega), Nat.le_succ _, fun b u hu => ?_, fun b u hu => ?_,
    fun b hb => if_neg (by omega), fun b i => .inl fun u hu => if_neg (by have := hu.1; omega)⟩
  · exact if_neg (by have := hs.has_lt hu; omega)
  · exact if_neg (by have := hs.has_lt hu; omega)

theorem owner_alloc (hs : Sound s) (n : Nat) : NewOwner s (State.allocated s n) ⟨s.next, 0⟩ n := by
  refine ⟨Nat.le_refl _, Nat.lt_succ_self _, rfl, if_pos rfl, rfl, if_pos rfl, Nat.lt_succ_self _, fun b i hi => ?_⟩
  have hb : b = s.mem.nbuf := hi.1.trans (if_pos rfl)
  have hi2 : i < 0 + n := hi.2.2
  refine ⟨?_, if_pos hb, fun u hu => ?_⟩
  · rw [hb, show (State.allocated s n).mem.size s.mem.nbuf = n from if_pos rfl]; omega
  · have e : u = s.next := by
      by_contra e
      have h1 : u < s.next + 1 := hu.1
      have h2 : (State.allocated s n).home u = b := hu.2
      rw [show (State.allocated s n).home u = s.home u from if_neg e] at h2
      have := hs.alloc u (by omega)
      omega
    subst e
    show ((if s.next = s.next then (⟨.active, true⟩ : Cell) else s.cell b i s.next).step true (if s.next = s.next then decide (s.next = s.next) else s.up s.next s.next) _).isSome
    rw [if_pos rfl, if_pos rfl, decide_eq_true rfl]
    cases (State.allocated s n).prot s.next <;> rfl

theorem alloc_uninit_sim (Pl : Plat) (hs : Sound s) (hu : (Simd.alloc_uninit_bytes Pl m).run s.mem ≠ .ub) {E : State → Prop} :
    Sim (alloc_uninit_bytes Pl m s) ((Simd.alloc_uninit_bytes Pl m).run s.mem)
      (fun b b' s' => b.len = m ∧ b' = ⟨⟨s.mem.nbuf, 0⟩, m⟩ ∧ s'.mem = s.mem.alloc m ∧ AfterCall s s' nothing ∧ NewOwner s s' b.ptr m) E := by
  unfold alloc_uninit_bytes
  unfold Simd.alloc_uninit_bytes at hu ⊢
  split at hu
  · rename_i hc
    rw [if_pos hc, if_pos hc]
    show Sim ((from_raw ⟨s.next, 0⟩ m >>= fun b => pure (⟨b, m⟩ : Slice)) (State.allocated s m)) (Out.ok (⟨⟨s.mem.nbuf, 0⟩, m⟩ : Slice) (State.allocated s m).mem) _ _
    have ho := owner_alloc hs m
    refine Sim.left (slice_mut_sim (sound_alloc hs m) ho.mutable) ?_
    rintro r s1 hm ⟨h1, h2, h3⟩
    have h4 : AfterCall s s1 nothing := by
      rw [ho.place_eq] at h1
      exact (after_alloc hs m).pushN h1 nothing_tag (fits_new hs (Nat.le_refl _))
    rw [← hm]
    exact ⟨rfl, rfl, rfl, hm, h4, ho.derive (Nat.le_succ _) h2 hm h3⟩
  · exact absurd rfl hu

theorem box_empty_sim (hs : Sound s) {E : State → Prop} :
    Sim (prog box_empty s) (box_empty.run s.mem) (fun r r' s' => r' = ⟨⟨s.mem.nbuf, 0⟩, r.len⟩ ∧ AfterCall s s' nothing ∧ NewOwner s s' r.ptr r.len) E :=
  ⟨rfl, rfl, after_alloc hs 0, owner_alloc hs 0⟩

/-! ### Filling the new memory -/

/-- The source has been read and the destination has been written; allocations are as before. -/
structure Filled (s s' : State) (P : Ptr) (n t : Nat) (Q : Ptr) (d u : Nat) : Prop where
  after : AfterCall s s' (G2 P n t Q d u)
  nbuf : s'.mem.nbuf = s.mem.nbuf
  size : s'.mem.size = s.mem.size

/-- Raw pointers to the source and to the destination, and work. -/
theorem fillA_sim {mk : Ptr → Nat → BProg Ptr} (hmk : IsRaw mk) {K : Ptr → Ptr → Prog β} {Z : Prog β → BProg γ} {o : Out δ} {F : γ → δ → State → Prop} {E : State → Prop} (hs : Sound s) (hr : Readable s p n) (hm : Mutable s q d)
    (hq : q.buf < s.next) (eP : place s p = P) (eQ : place s q = Q) (ho : NoOverlap P n Q d) (hG : Good2 K P n Q d s.mem)
    (hF : ∀ ρ a b, RenE ρ (K ⟨a, P.off⟩ ⟨b, Q.off⟩) (K ⟨ρ a, P.off⟩ ⟨ρ b, Q.off⟩)) (hu : ∀ a b : Ptr, Uses' (· = a.buf) (· = b.buf) (K a b))
    (hZ : ∀ x s1, Sim (prog x s1) ((K P Q).run s.mem) (fun v v' s' => (v = v' ∧ Filled s s' P n p.buf Q d q.buf) ∧ (K P Q).run s.mem = .ok v' s'.mem) (fun s' => Filled s s' P n p.buf Q d q.buf) → Sim (Z x s1) o F E) :
    Sim ((mk p n >>= fun r => as_mut_ptr q d >>= fun r' => Z (K r r')) s) o F E := by
  subst eP eQ
  refine Sim.left (hmk.sim hs hr) ?_
  rintro r s1 hm1 ⟨h1, h2, h3⟩
  have h1' := h1.weaken (G2_src (Q := place s q) (d := d) (u := q.buf))
  have hmu := G2_mutable ho h1' hq hm
  have eQ := AfterCall.place h1 hq
  refine Sim.left (as_mut_ptr_sim h1.sound hmu) ?_
  rintro r' s2 hm2 ⟨h4, h5, h6⟩
  have h4' : AfterCall s1 s2 (G1 (place s q) d q.buf) := eQ ▸ h4
  have h12 := h1'.push h4' (tag2 hr.1 hq) (none_or (G2_dst ho (Nat.le_refl d)))
  have hq' : Readable s2 r n := h4'.readable (fun b i hi => .inl (over_out fun h' => noOverlap_pt ho (h2.place ▸ hi) h')) h3
  have hnew := G2_new2 (P := place s p) (Q := place s q) (n := n) (d := d) (h2.toMade.after h4) (h5.toMade.old h1.next fun u _ => by rw [h1.up _ hq])
  have hmem : s2.mem = s.mem := hm2.trans hm1
  rw [← hmem] at hG
  have := kern2 (R := fun _ => Eq) h12.sound ((AfterCall.place h4 h2.hi).trans h2.place) (h5.place.trans eQ) hG hF (hu r r') (by have := h2.hi; have := h5.lo; omega) ho hq' h6
  rw [hmem] at this
  refine hZ _ _ (this.withRun.mono (fun v v' s' h => ?_) fun s' h => ?_)
  · obtain ⟨⟨e, _, h⟩, hx⟩ := h
    have hsh := (hu (place s p) (place s q)).shape (.inl ⟨_, hx⟩)
    exact ⟨⟨e, h12.push h (tag2 hr.1 hq) hnew, hsh.1, hsh.2⟩, hx⟩
  · obtain ⟨⟨_, h⟩, hx⟩ := h
    have hsh := (hu (place s p) (place s q)).shape (.inr hx)
    exact ⟨h12.push h (tag2 hr.1 hq) hnew, hsh.1, hsh.2⟩

/-- The destination first. -/
theorem fillB_sim {mk : Ptr → Nat → BProg Ptr} (hmk : IsRaw mk) {K : Ptr → Ptr → Prog β} {Z : Prog β → BProg γ} {o : Out δ} {F : γ → δ → State → Prop} {E : State → Prop} (hs : Sound s) (hr : Readable s p n) (hp : p.buf < s.next)
    (hm : Mutable s q d) (eP : place s p = P) (eQ : place s q = Q) (ho : NoOverlap P n Q d) (hG : Good2 K P n Q d s.mem)
    (hF : ∀ ρ a b, RenE ρ (K ⟨a, P.off⟩ ⟨b, Q.off⟩) (K ⟨ρ a, P.off⟩ ⟨ρ b, Q.off⟩)) (hu : ∀ a b : Ptr, Uses' (· = a.buf) (· = b.buf) (K a b))
    (hZ : ∀ x s1, Sim (prog x s1) ((K P Q).run s.mem) (fun v v' s' => (v = v' ∧ Filled s s' P n p.buf Q d q.buf) ∧ (K P Q).run s.mem = .ok v' s'.mem) (fun s' => Filled s s' P n p.buf Q d q.buf) → Sim (Z x s1) o F E) :
    Sim ((as_mut_ptr q d >>= fun r' => mk p n >>= fun r => Z (K r r')) s) o F E := by
  subst eP eQ
  refine Sim.left (as_mut_ptr_sim hs hm) ?_
  rintro r' s1 hm1 ⟨h1, h2, h3⟩
  have h1' := h1.weaken (G2_dst (P := place s p) (n := n) (t := p.buf) ho (Nat.le_refl d))
  have hre := G2_readable h1' hp hr
  have eP := AfterCall.place h1 hp
  refine Sim.left (hmk.sim h1.sound hre) ?_
  rintro r s2 hm2 ⟨h4, h5, h6⟩
  have h4' : AfterCall s1 s2 (G0 (place s p) n p.buf) := eP ▸ h4
  have h12 := h1'.push h4' (tag2 hp hm.1) (none_or G2_src)
  have eQ : place s2 r' = place s q := (AfterCall.place h4 h2.hi).trans h2.place
  have hmu : Mutable s2 r' d := h4'.mutable (fun b i hi => .inl (over_out fun h' => noOverlap_pt ho h' (h2.place ▸ hi))) h3
  have hnew := G2_new2 (P := place s p) (Q := place s q) (n := n) (d := d) (h5.toMade.old h1.next fun u _ => by rw [h1.up _ hp]) (h2.toMade.after h4)
  have hmem : s2.mem = s.mem := hm2.trans hm1
  rw [← hmem] at hG
  have := kern2 (R := fun _ => Eq) h12.sound (h5.place.trans eP) eQ hG hF (hu r r') (by have := h2.hi; have := h5.lo; omega) ho h6 hmu
  rw [hmem] at this
  refine hZ _ _ (this.withRun.mono (fun v v' s' h => ?_) fun s' h => ?_)
  · obtain ⟨⟨e, _, h⟩, hx⟩ := h
    have hsh := (hu (place s p) (place s q)).shape (.inl ⟨_, hx⟩)
    exact ⟨⟨e, h12.push h (tag2 hp hm.1) hnew, hsh.1, hsh.2⟩, hx⟩
  · obtain ⟨⟨_, h⟩, hx⟩ := h
    have hsh := (hu (place s p) (place s q)).shape (.inr hx)
    exact ⟨h12.push h (tag2 hp hm.1) hnew, hsh.1, hsh.2⟩

/-! ### Boxes -/

/-- The owner is turned into another one. -/
theorem NewOwner.turn {f : Ptr → BProg Ptr} (hf : Step m f) (h : NewOwner s s1 q m) (hs : Sound s) (h' : AfterCall s s1 G) (hG : ∀ b i t, Of t (G b i) → t < s.next) :
    Sim (call (arg .mut q m >>= f) s1) (.ok () s1.mem) (fun r _ s2 => AfterCall s s2 G ∧ NewOwner s s2 r m) (fun _ => True) := by
  have := hf.call_sim h'.sound h.mutable
  cases hx : call (arg .mut q m >>= f) s1 <;> rw [hx] at this <;> first | exact this.elim | skip
  obtain ⟨e, h1, h2, h3⟩ := this
  rw [h.place_eq] at h1
  exact ⟨e, h'.pushN h1 hG (fits_new hs (Nat.le_refl _)), h.derive h'.next h2 e h3⟩

/-- A new box: it owns its bytes, and the plain box is the same. -/
def NewBox (s s' : State) (r r' : Slice) : Prop := NewOwner s s' r.ptr r.len ∧ r' = ⟨⟨s.mem.nbuf, 0⟩, r.len⟩

theorem init_sim {b : Slice} (h : NewOwner s s1 b.ptr b.len) (hs : Sound s) (h' : AfterCall s s1 G) (hG : ∀ b i t, Of t (G b i) → t < s.next) (hl : b.len = m)
    (hu : (Simd.assume_init ⟨⟨s.mem.nbuf, 0⟩, m⟩).run s1.mem ≠ .ub) {E : State → Prop} :
    Sim (assume_init b s1) ((Simd.assume_init ⟨⟨s.mem.nbuf, 0⟩, m⟩).run s1.mem) (fun r r' s' => AfterCall s s' G ∧ NewBox s s' r r') E := by
  subst hl
  have e : (Simd.assume_init ⟨⟨s.mem.nbuf, 0⟩, b.len⟩).run s1.mem = match s1.mem.read ⟨s.mem.nbuf, 0⟩ b.len with
      | some _ => .ok ⟨⟨s.mem.nbuf, 0⟩, b.len⟩ s1.mem
      | none => .ub := by
    show (Prog.load _ _ _).run s1.mem = _
    unfold Prog.run
    cases s1.mem.read ⟨s.mem.nbuf, 0⟩ b.len <;> rfl
  rw [e] at hu ⊢
  cases hrd : s1.mem.read ⟨s.mem.nbuf, 0⟩ b.len with
  | none => rw [hrd] at hu; exact absurd rfl hu
  | some bs =>
    have e1 : inited b.ptr b.len s1 = .ok () s1 := by
      unfold inited
      rw [show (⟨s1.home b.ptr.buf, b.ptr.off⟩ : Ptr) = ⟨s.mem.nbuf, 0⟩ from h.place_eq, hrd]
    have hi : Sim (inited b.ptr b.len s1) (.ok () s1.mem) (fun _ _ s' => s' = s1) (fun _ => True) := by rw [e1]; exact ⟨rfl, rfl⟩
    refine Sim.left hi ?_
    rintro _ _ _ rfl
    refine Sim.left (h.turn step_init hs h' hG) ?_
    rintro r s2 hm ⟨h1, h2⟩
    exact ⟨hm, h1, h2, rfl⟩

theorem str_sim {r r' : Slice} (h : NewBox s s1 r r') (hs : Sound s) (h' : AfterCall s s1 G) (hG : ∀ b i t, Of t (G b i) → t < s.next) {E : State → Prop} :
    Sim (boxed_str r s1) (.ok () s1.mem) (fun r _ s' => AfterCall s s' G ∧ NewBox s s' r r') E := by
  refine Sim.left (h.1.turn step_str hs h' hG) ?_
  rintro a s2 hm ⟨h1, h2⟩
  exact ⟨hm, h1, h2, h.2⟩

theorem bytes_sim {r r' : Slice} (h : NewBox s s1 r r') (hs : Sound s) (h' : AfterCall s s1 G) (hG : ∀ b i t, Of t (G b i) → t < s.next) {E : State → Prop} :
    Sim (into_boxed_bytes r s1) (.ok () s1.mem) (fun r _ s' => AfterCall s s' G ∧ NewBox s s' r r') E := by
  refine Sim.left (h.1.turn step_init hs h' hG) ?_
  rintro a s2 hm ⟨h1, h2⟩
  exact ⟨hm, h1, h2, h.2⟩

/-- A new vector. -/
def NewVec (s s' : State) (r r' : RVec) : Prop := NewOwner s s' ⟨r.buf, 0⟩ r.cap ∧ r' = ⟨s.mem.nbuf, r.len, r.cap⟩

theorem vec_sim {r r' : Slice} (h : NewBox s s1 r r') (hs : Sound s) (h' : AfterCall s s1 G) (hG : ∀ b i t, Of t (G b i) → t < s.next) {E : State → Prop} :
    Sim (vec_from r s1) (.ok () s1.mem) (fun v _ s' => AfterCall s s' G ∧ NewVec s s' v (.ofBox r')) E := by
  refine Sim.left (h.1.turn step_into_raw hs h' hG) ?_
  rintro a s2 hm ⟨h1, h2⟩
  obtain ⟨t, o⟩ := a
  obtain rfl : o = 0 := h2.off
  exact ⟨hm, h1, h2, by rw [h.2]; rfl⟩

/-- What a function that returns an owner has done. -/
def NewOwned (s s' : State) (r r' : Owned) : Prop := NewOwner s s' (ownerOf r).1 (ownerOf r).2 ∧ r' = Moves.move s'.home r

theorem NewBox.move {r r' : Slice} (h : NewBox s s1 r r') : r' = ⟨⟨s1.home r.ptr.buf, r.ptr.off⟩, r.len⟩ := by rw [h.2, h.1.home, h.1.off]
theorem NewVec.move {r r' : RVec} (h : NewVec s s1 r r') : r' = ⟨s1.home r.buf, r.len, r.cap⟩ := by rw [h.2, show s1.home r.buf = _ from h.1.home]

theorem NewBox.bytes {r r' : Slice} (h : NewBox s s1 r r') : NewOwned s s1 (.bytes r) (.bytes r') := ⟨h.1, by rw [h.move]; rfl⟩
theorem NewBox.str {r r' : Slice} (h : NewBox s s1 r r') : NewOwned s s1 (.str r) (.str r') := ⟨h.1, by rw [h.move]; rfl⟩
theorem NewVec.vec {r r' : RVec} (h : NewVec s s1 r r') : NewOwned s s1 (.vec r) (.vec r') := ⟨h.1, by rw [h.move]; rfl⟩
theorem NewVec.string {r r' : RVec} (h : NewVec s s1 r r') : NewOwned s s1 (.string r) (.string r') := ⟨h.1, by rw [h.move]; rfl⟩

theorem from_decode_sim {x : BProg Slice} {y : Prog Slice} (hs : Sound s) (hG : ∀ b i t, Of t (G b i) → t < s.next) (ty : DecodeTy)
    (h : Sim (x s) (y.run s.mem) (fun r r' s' => AfterCall s s' G ∧ NewBox s s' r r') (fun s' => AfterCall s s' G ∧ Clear s s')) :
    Sim ((x >>= fun r => from_decode r ty) s) (Prog.run (match ty with | .bytes => do let a ← y; pure (.bytes a) | .vec => do let a ← y; pure (.vec (.ofBox a))) s.mem)
      (fun r r' s' => AfterCall s s' G ∧ NewOwned s s' r r') (fun s' => AfterCall s s' G ∧ Clear s s') := by
  cases ty with
  | bytes =>
    refine Sim.bind h ?_
    rintro r r' s1 - ⟨h1, h2⟩
    exact ⟨rfl, h1, h2.bytes⟩
  | vec =>
    refine Sim.bind h ?_
    rintro r r' s1 - ⟨h1, h2⟩
    refine Sim.left (vec_sim (E := fun _ => True) h2 hs h1 hG) ?_
    rintro v s2 hm ⟨h3, h4⟩
    exact ⟨hm, h3, h4.vec⟩

theorem from_encode_sim {x : BProg Slice} {y : Prog Slice} (hs : Sound s) (hG : ∀ b i t, Of t (G b i) → t < s.next) (ty : EncodeTy)
    (h : Sim (x s) (y.run s.mem) (fun r r' s' => AfterCall s s' G ∧ NewBox s s' r r') (fun s' => AfterCall s s' G ∧ Clear s s')) :
    Sim ((x >>= fun r => from_encode r ty) s) (Prog.run (match ty with | .bytes => do let a ← y; pure (.bytes a) | .str => do let a ← y; pure (.str a) | .vec => do let a ← y; pure (.vec (.ofBox a)) | .string => do let a ← y; pure (.string (.ofBox a))) s.mem)
      (fun r r' s' => AfterCall s s' G ∧ NewOwned s s' r r') (fun s' => AfterCall s s' G ∧ Clear s s') := by
  cases ty with
  | bytes =>
    refine Sim.bind h ?_
    rintro r r' s1 - ⟨h1, h2⟩
    refine Sim.left (bytes_sim (E := fun _ => True) h2 hs h1 hG) ?_
    rintro v s2 hm ⟨h3, h4⟩
    exact ⟨hm, h3, h4.bytes⟩
  | str =>
    refine Sim.bind h ?_
    rintro r r' s1 - ⟨h1, h2⟩
    exact ⟨rfl, h1, h2.str⟩
  | vec =>
    refine Sim.bind h ?_
    rintro r r' s1 - ⟨h1, h2⟩
    refine Sim.left (bytes_sim (E := fun _ => True) h2 hs h1 hG) ?_
    rintro v s2 hm ⟨h3, h4⟩
    refine Sim.left (vec_sim (E := fun _ => True) h4 hs h3 hG) ?_
    rintro v s3 hm' ⟨h5, h6⟩
    exact ⟨hm'.trans hm, h5, h6.vec⟩
  | string =>
    refine Sim.bind h ?_
    rintro r r' s1 - ⟨h1, h2⟩
    show Sim ((string_from r >>= fun v => pure (Owned.string v)) s1) _ _ _
    have : Sim (string_from r s1) (.ok () s1.mem) (fun v _ s' => AfterCall s s' G ∧ NewVec s s' v (.ofBox r')) (fun _ => True) := by
      refine Sim.left (bytes_sim (E := fun _ => True) h2 hs h1 hG) ?_
      rintro v s2 hm ⟨h3, h4⟩
      rw [← hm]
      exact vec_sim h4 hs h3 hG
    refine Sim.left this ?_
    rintro v s2 hm ⟨h3, h4⟩
    exact ⟨hm, h3, h4.string⟩

/-- A function that is lent a source and allocates. -/
theorem box_call {body : Ptr → BProg α} {y : Prog β} {F : State → State → α → β → Prop} (hs : Sound s) (hr : Readable s p n) (eP : place s p = P)
    (hF : ∀ s1 s2 s3 a b, s1.mem = s.mem → s.next ≤ s1.next → Back s2 s3 → F s1 s2 a b → F s s3 a b)
    (hb : ∀ s1 p1, s1.mem = s.mem → Sound s1 → Readable s1 p1 n → p1.buf < s1.next → place s1 p1 = P →
      Sim (body p1 s1) (y.run s1.mem) (fun r r' s' => AfterCall s1 s' (G0 P n p1.buf) ∧ F s1 s' r r') (fun s' => AfterCall s1 s' (G0 P n p1.buf) ∧ Clear s1 s')) :
    Sim (call (arg .shared p n >>= body) s) (y.run s.mem) (fun r r' s' => AfterCall s s' (G0 P n p.buf) ∧ F s s' r r') (fun s' => AfterCall s s' (G0 P n p.buf) ∧ Clear s s') := by
  subst eP
  refine call_sim (k := .shared) (G := nothing) (Q := fun v v' s' => F s s' v v') (E := fun s' => Clear s s') hs nothing_tag hr fun s1 hm1 hs1 h => ?_
  obtain ⟨hn, -⟩ := h.enter
  have := hb s1 ⟨s.next, p.off⟩ hm1 hs1 (h.readable (sound_enter hs) hr.enter) (by show s.next < s1.next; omega) h.place_new
  rw [hm1] at this
  refine this.mono (fun v v' s' h => ⟨h.1, fun s3 hb => hF _ _ _ _ _ hm1 (by omega) hb h.2⟩) fun s' h => ⟨h.1, fun s3 hb b h1 h2 => hb.freed (h.2 b (by rw [hm1]; exact h1) ?_)⟩
  rw [hb.facts.2.1] at h2; exact h2

theorem newBox_back (s s1 s2 s3 : State) (a b : Slice) (hm : s1.mem = s.mem) (hn : s.next ≤ s1.next) (hb : Back s2 s3) (h : NewBox s1 s2 a b) : NewBox s s3 a b := ⟨h.1.back hb hm hn, by rw [h.2, hm]⟩

end Simd.Tree
