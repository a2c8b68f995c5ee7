import Verif.Lemmas.BorrowOwn
/-
Functions that allocate a box, with borrow stacks.
-/
namespace Simd.Borrow
open Spec

variable {α β γ δ : Type} {s s1 s2 : State} {p q P Q : Ptr} {n m d t N : Nat} {G : Nat → Nat → Loan}

/-- A step of the program with borrow stacks only, after one of both. -/
theorem Sim.after {x : BProg α} {f : α → BProg γ} {o : Out β} {Q : α → β → State → Prop} {E E' : State → Prop} {Q' : γ → β → State → Prop} (h : Sim (x s) o Q E)
    (hf : ∀ a b s', Q a b s' → Sim (f a s') (.ok () s'.mem) (fun c _ s'' => Q' c b s'') E') : Sim ((x >>= f) s) o Q' E := by
  show Sim (BProg.bind x f s) _ _ _
  unfold BProg.bind
  cases hx : x s with
  | ok a s' =>
    rw [hx] at h
    cases o with
    | ok b m =>
      obtain ⟨rfl, h⟩ := h
      have := hf a b s' h
      dsimp only
      cases hf' : f a s' <;> rw [hf'] at this <;> first | exact this.elim | exact this
    | _ => exact h.elim
  | err s' => rw [hx] at h; cases o <;> first | exact h.elim | exact h
  | panic => rw [hx] at h; cases o <;> first | exact h.elim | trivial
  | ub => rw [hx] at h; cases o <;> exact h.elim

/-! ### Loans -/

/-- Allocations from number `N` on are new. -/
abbrev fresh (N : Nat) (b _i : Nat) : Loan := if N ≤ b then .own else .none

/-- What a function has been lent that reads a source and allocates. -/
abbrev GH (P : Ptr) (n t N : Nat) : Nat → Nat → Loan := over P n (.shared t) (fresh N)

theorem fresh_own (b i : Nat) (h : N ≤ b) : fresh N b i = .own := if_pos h
theorem GH_own (hP : P.buf < N) (b i : Nat) (h : N ≤ b) : GH P n t N b i = .own := (over_out fun hi => by have := hi.1; omega).trans (if_pos h)

theorem fits_own (hG : ∀ b i, N ≤ b → G b i = .own) (hQ : N ≤ Q.buf) {r : Nat} (hr : s.next ≤ r) (b i : Nat) : Fits s (G b i) (G1 Q m r b i) := by
  by_cases h : In Q m b i
  · exact .inr (.inr (.inr (.inr ⟨r, hG b i (h.1 ▸ hQ), over_in h, hr⟩)))
  · exact .inl (over_out h)

theorem fits_src (b i : Nat) : Fits s (GH P n t N b i) (G0 P n t b i) := by
  by_cases h : In P n b i
  · exact .inr (.inl ((over_in h).trans (over_in h).symm))
  · exact .inl (over_out h)

theorem fits_fresh (hP : P.buf < N) (b i : Nat) : Fits s (GH P n t N b i) (fresh N b i) := by
  by_cases h : In P n b i
  · rw [show GH P n t N b i = _ from over_in h]
    by_cases hb : N ≤ b
    · have := h.1; omega
    · exact .inl (if_neg hb)
  · exact .inr (.inl (over_out h).symm)

theorem fits_fill (hP : P.buf < N) (hQ : N ≤ Q.buf) {u : Nat} (hu : s.next ≤ u) (b i : Nat) : Fits s (GH P n t N b i) (G2 P n t Q d u b i) := by
  by_cases h : In P n b i
  · exact .inr (.inl ((over_in h).trans (over_in h).symm))
  · rw [show G2 P n t Q d u b i = over Q d (.excl u) nothing b i from over_out h]
    exact fits_own (GH_own hP) hQ hu b i

/-! ### The owner of the new allocation -/

/-- `q` owns the `m` bytes of the only allocation made since `s`. -/
structure NewOwner (s s' : State) (q : Ptr) (m : Nat) : Prop where
  lo : s.next ≤ q.buf
  hi : q.buf < s'.next
  off : q.off = 0
  home : s'.home q.buf = s.mem.nbuf
  nbuf : s'.mem.nbuf = s.mem.nbuf + 1
  size : s'.mem.size s.mem.nbuf = m
  mutable : Mutable s' q m

namespace NewOwner

theorem place_eq (h : NewOwner s s1 q m) : place s1 q = ⟨s.mem.nbuf, 0⟩ := by
  unfold place; rw [h.home, h.off]

/-- The owner still owns after a step that used at most the owner's tag. -/
theorem step (h : NewOwner s s1 q m) (h' : AfterCall s1 s2 G) (hG : ∀ b i, In ⟨s.mem.nbuf, 0⟩ m b i → G b i = .none ∨ G b i = .excl q.buf) (hn : s2.mem.nbuf = s1.mem.nbuf) (hz : s2.mem.size = s1.mem.size) :
    NewOwner s s2 q m :=
  ⟨h.lo, Nat.lt_of_lt_of_le h.hi h'.next, h.off, (h'.home _ h.hi).trans h.home, hn.trans h.nbuf, by rw [hz]; exact h.size, h'.mutable h.hi (by rw [h.place_eq]; exact hG) h.mutable⟩

/-- Another owner made from the owner. -/
theorem derive (h : NewOwner s s1 q m) {r : Ptr} (hn : s1.next ≤ s2.next) (hlo : s.next ≤ s1.next) (hd : Derived s1 s2 q r) (hm : s2.mem = s1.mem) (hmu : Mutable s2 r m) : NewOwner s s2 r m :=
  ⟨Nat.le_trans hlo hd.lo, hd.hi, hd.off.trans h.off, hd.home.trans h.home, by rw [hm]; exact h.nbuf, by rw [hm]; exact h.size, hmu⟩

theorem owns (h : NewOwner s s1 q m) (hs : Sound s) (h' : AfterCall s s1 G) (hG : ∀ b i, s.mem.nbuf ≤ b → G b i = .own) : Owns s1 q m := by
  refine ⟨h.hi, h.off, by rw [h.home, h.nbuf]; omega, by rw [h.home]; exact h.size, h.mutable, fun i hi it hit => ?_⟩
  have hin : In (place s1 q) m (s1.home q.buf) i := ⟨rfl, by show q.off ≤ i; rw [h.off]; omega, by show i < q.off + m; rw [h.off]; omega⟩
  obtain ⟨w, hw⟩ := Option.isSome_iff_exists.1 (h.mutable _ i hin)
  obtain ⟨it', h1, h2⟩ := Stack.write_has hw
  obtain ⟨a, e⟩ := Stack.write_suffix hw
  exact (new_items hs h' (hG _ _ (by rw [h.home])) (by rw [e]; exact List.mem_append_right _ h1) (by rw [h2]; exact h.lo) it hit).2.2

theorem ret (h : NewOwner s1 s2 q m) (hm : s1.mem = s.mem) (hn : s.next ≤ s1.next) : NewOwner s s2.ret q m :=
  ⟨Nat.le_trans hn h.lo, h.hi, h.off, h.home.trans (by rw [hm]), by rw [← hm]; exact h.nbuf, by rw [← hm]; exact h.size, Mutable.ret h.mutable⟩

/-- Dropping the owner. -/
theorem drop {x : BProg Unit} (hx : x = if m = 0 then pure () else dealloc q m) (h : NewOwner s s1 q m) (hs : Sound s) (h' : AfterCall s s1 G) (hG : ∀ b i, s.mem.nbuf ≤ b → G b i = .own) {E : State → Prop} :
    Sim (x s1) (.ok () s1.mem) (fun _ _ s2 => s2.mem = s1.mem ∧ AfterCall s s2 G ∧ Clear s s2) E := by
  have := drop_sim (E := E) hx (h.owns hs h' hG)
  cases hx' : x s1 <;> rw [hx'] at this <;> first | exact this.elim | skip
  rename_i s2
  obtain ⟨e, h1, h2, h3, h4, h5⟩ := this
  rw [h.home] at h4 h5
  refine ⟨e, e, ⟨by rw [h1]; exact h'.next, h2.trans h'.frame, fun t ht => by rw [h3]; exact h'.home t ht, fun b i => ?_⟩, fun b hb hb' i hi => ?_⟩
  · by_cases hb : b = s.mem.nbuf ∧ i < m
    · refine .inr ?_
      rw [hG b i (by omega), h4 b i hb]
      nofun
    · rw [h5 b i hb]
      exact StackAfter.mono (h'.stack b i) (by omega)
  · rw [e, h.nbuf] at hb'
    have hb : b = s.mem.nbuf := by omega
    rw [hb, e, h.size] at hi
    exact h4 b i ⟨hb, hi⟩

end NewOwner

/-! ### Allocation -/

/-- The state after an allocation. -/
def State.allocated (s : State) (n : Nat) : State :=
  { s with
    mem := s.mem.alloc n
    home := fun t => if t = s.next then s.mem.nbuf else s.home t
    next := s.next + 1
    stack := fun b i => if b = s.mem.nbuf then [⟨.unique, s.next, none⟩] else s.stack b i }

theorem alloc_eq (n : Nat) (s : State) : alloc n s = .ok ⟨s.next, 0⟩ (State.allocated s n) := rfl

theorem after_alloc (s : State) (n : Nat) : AfterCall s (State.allocated s n) (fresh s.mem.nbuf) := by
  refine ⟨Nat.le_succ _, rfl, fun t ht => if_neg (by omega), fun b i => ?_⟩
  show StackAfter s _ _ _ (if b = s.mem.nbuf then [⟨.unique, s.next, none⟩] else s.stack b i)
  split
  · rename_i h
    refine .inr ?_
    rw [fresh_own b i (by omega)]
    intro it hi
    cases List.mem_singleton.1 hi
    exact ⟨Nat.le_refl _, Nat.lt_succ_self _, rfl⟩
  · exact .inl rfl

theorem onTop_alloc (s : State) (n k : Nat) : OnTop (State.allocated s n) .unique ⟨s.next, 0⟩ k := fun b i hi => by
  have hb : b = s.mem.nbuf := hi.1.trans (if_pos rfl)
  exact ⟨[], if_pos hb⟩

theorem owner_alloc (s : State) (n : Nat) : NewOwner s (State.allocated s n) ⟨s.next, 0⟩ n :=
  ⟨Nat.le_refl _, Nat.lt_succ_self _, rfl, if_pos rfl, rfl, if_pos rfl, OnTop.mutable (onTop_alloc s n n) (.inl rfl)⟩

theorem alloc_uninit_sim (Pl : Plat) (hs : Sound s) (hu : (Simd.alloc_uninit_bytes Pl m).run s.mem ≠ .ub) {E : State → Prop} :
    Sim (alloc_uninit_bytes Pl m s) ((Simd.alloc_uninit_bytes Pl m).run s.mem)
      (fun b b' s' => b.len = m ∧ b' = ⟨⟨s.mem.nbuf, 0⟩, m⟩ ∧ s'.mem = s.mem.alloc m ∧ AfterCall s s' (fresh s.mem.nbuf) ∧ NewOwner s s' b.ptr m) E := by
  unfold alloc_uninit_bytes
  unfold Simd.alloc_uninit_bytes at hu ⊢
  split at hu
  · rename_i hc
    rw [if_pos hc, if_pos hc]
    show Sim ((from_raw ⟨s.next, 0⟩ m >>= fun b => pure (⟨b, m⟩ : Slice)) (State.allocated s m)) (Out.ok (⟨⟨s.mem.nbuf, 0⟩, m⟩ : Slice) (State.allocated s m).mem) _ _
    refine Sim.left (slice_mut_sim (OnTop.mutable (onTop_alloc s m m) (.inl rfl))) ?_
    rintro r s1 hm ⟨h1, h2, h3⟩
    have h4 : AfterCall s s1 (fresh s.mem.nbuf) := by
      rw [(owner_alloc s m).place_eq] at h1
      exact (after_alloc s m).push hs h1 (fits_own fresh_own (Nat.le_refl _) (Nat.le_refl _))
    rw [← hm]
    exact ⟨rfl, rfl, rfl, hm, h4, (owner_alloc s m).derive h1.next (Nat.le_succ _) h2 hm (OnTop.mutable h3 (.inl rfl))⟩
  · exact absurd rfl hu

theorem box_empty_sim (s : State) {E : State → Prop} :
    Sim (prog box_empty s) (box_empty.run s.mem) (fun r r' s' => r' = ⟨⟨s.mem.nbuf, 0⟩, r.len⟩ ∧ AfterCall s s' (fresh s.mem.nbuf) ∧ NewOwner s s' r.ptr r.len) E :=
  ⟨rfl, rfl, after_alloc s 0, owner_alloc s 0⟩

/-! ### Filling the new memory -/

theorem fits_dst (ho : NoOverlap P n Q d) {u v : Nat} (hv : s.next ≤ v) (b i : Nat) : Fits s (G2 P n t Q d u b i) (G1 Q d v b i) := by
  by_cases h : In Q d b i
  · exact .inr (.inr (.inl ⟨u, v, (over_out fun h' => noOverlap_pt ho h' h).trans (over_in h), over_in h, hv⟩))
  · exact .inl (over_out h)

/-- The source has been read and the destination has been written; allocations are as before. -/
structure Filled (s s' : State) (P : Ptr) (n t : Nat) (Q : Ptr) (d u : Nat) : Prop where
  after : AfterCall s s' (G2 P n t Q d u)
  nbuf : s'.mem.nbuf = s.mem.nbuf
  size : s'.mem.size = s.mem.size

/-- Raw pointers to the source and to the destination, and work. -/
theorem fillA_sim {mk : Ptr → Nat → BProg Ptr} (hmk : IsRaw mk) {K : Ptr → Ptr → Prog β} {Z : Prog β → BProg γ} {o : Out δ} {F : γ → δ → State → Prop} {E : State → Prop} (hs : Sound s) (hr : Readable s p n) (hm : Mutable s q d)
    (hq : q.buf < s.next) (eP : place s p = P) (eQ : place s q = Q) (ho : NoOverlap P n Q d) (hG : Good2 K P n Q d s.mem)
    (hF : ∀ ρ a b, RenE ρ (K ⟨a, P.off⟩ ⟨b, Q.off⟩) (K ⟨ρ a, P.off⟩ ⟨ρ b, Q.off⟩)) (hu : ∀ a b : Ptr, Uses' (· = a.buf) (· = b.buf) (K a b))
    (hZ : ∀ x s1, Sim (prog x s1) ((K P Q).run s.mem) (fun v v' s' => (v = v' ∧ Filled s s' P n p.buf Q d q.buf) ∧ (K P Q).run s.mem = .ok v' s'.mem) (fun s' => Filled s s' P n p.buf Q d q.buf) → Sim (Z x s1) o F E) :
    Sim ((mk p n >>= fun r => as_mut_ptr q d >>= fun r' => Z (K r r')) s) o F E := by
  subst eP eQ
  refine Sim.left (hmk.sim hs hr) ?_
  rintro r s1 hm1 ⟨h1, h2, h3⟩
  have h1' := h1.weaken (G2_src (Q := place s q) (d := d) (u := q.buf))
  have hmu := G2_mutable ho h1' hq hm
  have eQ := AfterCall.place h1 hq
  refine Sim.left (as_mut_ptr_sim (h1.sound hs) hmu) ?_
  rintro r' s2 hm2 ⟨h4, h5, h6⟩
  have h4' : AfterCall s1 s2 (G1 (place s q) d q.buf) := eQ ▸ h4
  have h12 := h1'.push hs h4' (none_or (G2_dst ho (Nat.le_refl d)))
  have hq' : Quiet s2 r n := Quiet.after h4' h2.hi (fun b i hi => over_out fun h' => noOverlap_pt ho (h2.place ▸ hi) h') h3
  have hlo : s.next ≤ r'.buf := Nat.le_trans h1.next h5.lo
  have hmem : s2.mem = s.mem := hm2.trans hm1
  rw [← hmem] at hG
  have := kern2 (R := fun _ => Eq) ((AfterCall.place h4 h2.hi).trans h2.place) (h5.place.trans eQ) hG hF (hu r r') (by have := h2.hi; have := h5.lo; omega) ho hq' (OnTop.mutable h6 (.inr rfl))
  rw [hmem] at this
  refine hZ _ _ (this.withRun.mono (fun v v' s' h => ?_) fun s' h => ?_)
  · obtain ⟨⟨e, _, h⟩, hx⟩ := h
    have hsh := (hu (place s p) (place s q)).shape (.inl ⟨_, hx⟩)
    exact ⟨⟨e, h12.push hs h (fits_dst ho hlo), hsh.1, hsh.2⟩, hx⟩
  · obtain ⟨⟨_, h⟩, hx⟩ := h
    have hsh := (hu (place s p) (place s q)).shape (.inr hx)
    exact ⟨h12.push hs h (fits_dst ho hlo), hsh.1, hsh.2⟩

/-- The destination first. -/
theorem fillB_sim {mk : Ptr → Nat → BProg Ptr} (hmk : IsRaw mk) {K : Ptr → Ptr → Prog β} {Z : Prog β → BProg γ} {o : Out δ} {F : γ → δ → State → Prop} {E : State → Prop} (hs : Sound s) (hr : Readable s p n) (hp : p.buf < s.next)
    (hm : Mutable s q d) (eP : place s p = P) (eQ : place s q = Q) (ho : NoOverlap P n Q d) (hG : Good2 K P n Q d s.mem)
    (hF : ∀ ρ a b, RenE ρ (K ⟨a, P.off⟩ ⟨b, Q.off⟩) (K ⟨ρ a, P.off⟩ ⟨ρ b, Q.off⟩)) (hu : ∀ a b : Ptr, Uses' (· = a.buf) (· = b.buf) (K a b))
    (hZ : ∀ x s1, Sim (prog x s1) ((K P Q).run s.mem) (fun v v' s' => (v = v' ∧ Filled s s' P n p.buf Q d q.buf) ∧ (K P Q).run s.mem = .ok v' s'.mem) (fun s' => Filled s s' P n p.buf Q d q.buf) → Sim (Z x s1) o F E) :
    Sim ((as_mut_ptr q d >>= fun r' => mk p n >>= fun r => Z (K r r')) s) o F E := by
  subst eP eQ
  refine Sim.left (as_mut_ptr_sim hs hm) ?_
  rintro r' s1 hm1 ⟨h1, h2, h3⟩
  have h1' := h1.weaken (G2_dst (P := place s p) (n := n) (t := p.buf) ho (Nat.le_refl d))
  have hre := G2_readable h1' hp hr
  have eP := AfterCall.place h1 hp
  refine Sim.left (hmk.sim (h1.sound hs) hre) ?_
  rintro r s2 hm2 ⟨h4, h5, h6⟩
  have h4' : AfterCall s1 s2 (G0 (place s p) n p.buf) := eP ▸ h4
  have h12 := h1'.push hs h4' (none_or G2_src)
  have eQ : place s2 r' = place s q := (AfterCall.place h4 h2.hi).trans h2.place
  have hmu : Mutable s2 r' d := h4'.mutable h2.hi (fun b i hi => .inl (over_out fun h' => noOverlap_pt ho h' (h2.place ▸ hi))) (OnTop.mutable h3 (.inr rfl))
  have hmem : s2.mem = s.mem := hm2.trans hm1
  rw [← hmem] at hG
  have := kern2 (R := fun _ => Eq) (h5.place.trans eP) eQ hG hF (hu r r') (by have := h2.hi; have := h5.lo; omega) ho h6 hmu
  rw [hmem] at this
  refine hZ _ _ (this.withRun.mono (fun v v' s' h => ?_) fun s' h => ?_)
  · obtain ⟨⟨e, _, h⟩, hx⟩ := h
    have hsh := (hu (place s p) (place s q)).shape (.inl ⟨_, hx⟩)
    exact ⟨⟨e, h12.push hs h (fits_dst ho h2.lo), hsh.1, hsh.2⟩, hx⟩
  · obtain ⟨⟨_, h⟩, hx⟩ := h
    have hsh := (hu (place s p) (place s q)).shape (.inr hx)
    exact ⟨h12.push hs h (fits_dst ho h2.lo), hsh.1, hsh.2⟩

/-! ### Boxes -/

/-- The owner is turned into another one. -/
theorem NewOwner.turn {perm : Perm} {f : Ptr → BProg Ptr} (hp : perm = .unique ∨ perm = .sharedRW) (hf : Step m perm f) (h : NewOwner s s1 q m) (hs : Sound s) (h' : AfterCall s s1 G) (hG : ∀ b i, s.mem.nbuf ≤ b → G b i = .own) :
    Sim (call (arg .mut q m >>= f) s1) (.ok () s1.mem) (fun r _ s2 => AfterCall s s2 G ∧ NewOwner s s2 r m) (fun _ => True) := by
  have := hf.call_sim (h'.sound hs) h.mutable
  cases hx : call (arg .mut q m >>= f) s1 <;> rw [hx] at this <;> first | exact this.elim | skip
  obtain ⟨e, h1, h2, h3⟩ := this
  rw [h.place_eq] at h1
  exact ⟨e, h'.push hs h1 (fits_own hG (Nat.le_refl _) h.lo), h.derive h1.next h'.next h2 e (OnTop.mutable h3 hp)⟩

/-- A new box: it owns its bytes, and the plain box is the same. -/
def NewBox (s s' : State) (r r' : Slice) : Prop := NewOwner s s' r.ptr r.len ∧ r' = ⟨⟨s.mem.nbuf, 0⟩, r.len⟩

theorem init_sim {b : Slice} (h : NewOwner s s1 b.ptr b.len) (hs : Sound s) (h' : AfterCall s s1 G) (hG : ∀ b i, s.mem.nbuf ≤ b → G b i = .own) (hl : b.len = m)
    (hu : (Simd.assume_init ⟨⟨s.mem.nbuf, 0⟩, m⟩).run s1.mem ≠ .ub) {E : State → Prop} :
    Sim (assume_init b s1) ((Simd.assume_init ⟨⟨s.mem.nbuf, 0⟩, m⟩).run s1.mem) (fun r r' s' => AfterCall s s' G ∧ NewBox s s' r r') E := by
  subst hl
  have e : (Simd.assume_init ⟨⟨s.mem.nbuf, 0⟩, b.len⟩).run s1.mem = match s1.mem.read ⟨s.mem.nbuf, 0⟩ b.len with
      | some _ => .ok ⟨⟨s.mem.nbuf, 0⟩, b.len⟩ s1.mem
      | none => .ub := by
    show (Prog.load _ _ _).run s1.mem = _
    unfold Prog.run
    cases s1.mem.read ⟨s.mem.nbuf, 0⟩ b.len <;> rfl
  rw [e] at hu ⊢
  cases hrd : s1.mem.read ⟨s.mem.nbuf, 0⟩ b.len with
  | none => rw [hrd] at hu; exact absurd rfl hu
  | some bs =>
    have e1 : inited b.ptr b.len s1 = .ok () s1 := by
      unfold inited
      rw [show (⟨s1.home b.ptr.buf, b.ptr.off⟩ : Ptr) = ⟨s.mem.nbuf, 0⟩ from h.place_eq, hrd]
    have hi : Sim (inited b.ptr b.len s1) (.ok () s1.mem) (fun _ _ s' => s' = s1) (fun _ => True) := by rw [e1]; exact ⟨rfl, rfl⟩
    refine Sim.left hi ?_
    rintro _ _ _ rfl
    refine Sim.left (h.turn (.inl rfl) step_init hs h' hG) ?_
    rintro r s2 hm ⟨h1, h2⟩
    exact ⟨hm, h1, h2, rfl⟩

theorem str_sim {r r' : Slice} (h : NewBox s s1 r r') (hs : Sound s) (h' : AfterCall s s1 G) (hG : ∀ b i, s.mem.nbuf ≤ b → G b i = .own) {E : State → Prop} :
    Sim (boxed_str r s1) (.ok () s1.mem) (fun r _ s' => AfterCall s s' G ∧ NewBox s s' r r') E := by
  refine Sim.left (h.1.turn (.inl rfl) step_str hs h' hG) ?_
  rintro a s2 hm ⟨h1, h2⟩
  exact ⟨hm, h1, h2, h.2⟩

theorem bytes_sim {r r' : Slice} (h : NewBox s s1 r r') (hs : Sound s) (h' : AfterCall s s1 G) (hG : ∀ b i, s.mem.nbuf ≤ b → G b i = .own) {E : State → Prop} :
    Sim (into_boxed_bytes r s1) (.ok () s1.mem) (fun r _ s' => AfterCall s s' G ∧ NewBox s s' r r') E := by
  refine Sim.left (h.1.turn (.inl rfl) step_init hs h' hG) ?_
  rintro a s2 hm ⟨h1, h2⟩
  exact ⟨hm, h1, h2, h.2⟩

/-- A new vector. -/
def NewVec (s s' : State) (r r' : RVec) : Prop := NewOwner s s' ⟨r.buf, 0⟩ r.cap ∧ r' = ⟨s.mem.nbuf, r.len, r.cap⟩

theorem vec_sim {r r' : Slice} (h : NewBox s s1 r r') (hs : Sound s) (h' : AfterCall s s1 G) (hG : ∀ b i, s.mem.nbuf ≤ b → G b i = .own) {E : State → Prop} :
    Sim (vec_from r s1) (.ok () s1.mem) (fun v _ s' => AfterCall s s' G ∧ NewVec s s' v (.ofBox r')) E := by
  refine Sim.left (h.1.turn (.inr rfl) step_into_raw hs h' hG) ?_
  rintro a s2 hm ⟨h1, h2⟩
  obtain ⟨t, o⟩ := a
  obtain rfl : o = 0 := h2.off
  exact ⟨hm, h1, h2, by rw [h.2]; rfl⟩

/-- What a function that returns an owner has done. -/
def NewOwned (s s' : State) (r r' : Owned) : Prop := NewOwner s s' (ownerOf r).1 (ownerOf r).2 ∧ r' = Moves.move s'.home r

theorem NewBox.move {r r' : Slice} (h : NewBox s s1 r r') : r' = ⟨⟨s1.home r.ptr.buf, r.ptr.off⟩, r.len⟩ := by rw [h.2, h.1.home, h.1.off]
theorem NewVec.move {r r' : RVec} (h : NewVec s s1 r r') : r' = ⟨s1.home r.buf, r.len, r.cap⟩ := by rw [h.2, show s1.home r.buf = _ from h.1.home]

theorem NewBox.bytes {r r' : Slice} (h : NewBox s s1 r r') : NewOwned s s1 (.bytes r) (.bytes r') := ⟨h.1, by rw [h.move]; rfl⟩
theorem NewBox.str {r r' : Slice} (h : NewBox s s1 r r') : NewOwned s s1 (.str r) (.str r') := ⟨h.1, by rw [h.move]; rfl⟩
theorem NewVec.vec {r r' : RVec} (h : NewVec s s1 r r') : NewOwned s s1 (.vec r) (.vec r') := ⟨h.1, by rw [h.move]; rfl⟩
theorem NewVec.string {r r' : RVec} (h : NewVec s s1 r r') : NewOwned s s1 (.string r) (.string r') := ⟨h.1, by rw [h.move]; rfl⟩

theorem from_decode_sim {x : BProg Slice} {y : Prog Slice} (hs : Sound s) (hG : ∀ b i, s.mem.nbuf ≤ b → G b i = .own) (ty : DecodeTy)
    (h : Sim (x s) (y.run s.mem) (fun r r' s' => AfterCall s s' G ∧ NewBox s s' r r') (fun s' => AfterCall s s' G ∧ Clear s s')) :
    Sim ((x >>= fun r => from_decode r ty) s) (Prog.run (match ty with | .bytes => do let a ← y; pure (.bytes a) | .vec => do let a ← y; pure (.vec (.ofBox a))) s.mem)
      (fun r r' s' => AfterCall s s' G ∧ NewOwned s s' r r') (fun s' => AfterCall s s' G ∧ Clear s s') := by
  cases ty with
  | bytes =>
    refine Sim.bind h ?_
    rintro r r' s1 - ⟨h1, h2⟩
    exact ⟨rfl, h1, h2.bytes⟩
  | vec =>
    refine Sim.bind h ?_
    rintro r r' s1 - ⟨h1, h2⟩
    refine Sim.left (vec_sim (E := fun _ => True) h2 hs h1 hG) ?_
    rintro v s2 hm ⟨h3, h4⟩
    exact ⟨hm, h3, h4.vec⟩

theorem from_encode_sim {x : BProg Slice} {y : Prog Slice} (hs : Sound s) (hG : ∀ b i, s.mem.nbuf ≤ b → G b i = .own) (ty : EncodeTy)
    (h : Sim (x s) (y.run s.mem) (fun r r' s' => AfterCall s s' G ∧ NewBox s s' r r') (fun s' => AfterCall s s' G ∧ Clear s s')) :
    Sim ((x >>= fun r => from_encode r ty) s) (Prog.run (match ty with | .bytes => do let a ← y; pure (.bytes a) | .str => do let a ← y; pure (.str a) | .vec => do let a ← y; pure (.vec (.ofBox a)) | .string => do let a ← y; pure (.string (.ofBox a))) s.mem)
      (fun r r' s' => AfterCall s s' G ∧ NewOwned s s' r r') (fun s' => AfterCall s s' G ∧ Clear s s') := by
  cases ty with
  | bytes =>
    refine Sim.bind h ?_
    rintro r r' s1 - ⟨h1, h2⟩
    refine Sim.left (bytes_sim (E := fun _ => True) h2 hs h1 hG) ?_
    rintro v s2 hm ⟨h3, h4⟩
    exact ⟨hm, h3, h4.bytes⟩
  | str =>
    refine Sim.bind h ?_
    rintro r r' s1 - ⟨h1, h2⟩
    exact ⟨rfl, h1, h2.str⟩
  | vec =>
    refine Sim.bind h ?_
    rintro r r' s1 - ⟨h1, h2⟩
    refine Sim.left (bytes_sim (E := fun _ => True) h2 hs h1 hG) ?_
    rintro v s2 hm ⟨h3, h4⟩
    refine Sim.left (vec_sim (E := fun _ => True) h4 hs h3 hG) ?_
    rintro v s3 hm' ⟨h5, h6⟩
    exact ⟨hm'.trans hm, h5, h6.vec⟩
  | string =>
    refine Sim.bind h ?_
    rintro r r' s1 - ⟨h1, h2⟩
    show Sim ((string_from r >>= fun v => pure (Owned.string v)) s1) _ _ _
    have : Sim (string_from r s1) (.ok () s1.mem) (fun v _ s' => AfterCall s s' G ∧ NewVec s s' v (.ofBox r')) (fun _ => True) := by
      refine Sim.left (bytes_sim (E := fun _ => True) h2 hs h1 hG) ?_
      rintro v s2 hm ⟨h3, h4⟩
      rw [← hm]
      exact vec_sim h4 hs h3 hG
    refine Sim.left this ?_
    rintro v s2 hm ⟨h3, h4⟩
    exact ⟨hm, h3, h4.string⟩

/-- A function that is lent a source and allocates. -/
theorem box_call {body : Ptr → BProg α} {y : Prog β} {F : State → State → α → β → Prop} (hs : Sound s) (hr : Readable s p n) (eP : place s p = P) (hP : P.buf < s.mem.nbuf)
    (hF : ∀ s1 s2 a b, s1.mem = s.mem → s.next ≤ s1.next → F s1 s2 a b → F s s2.ret a b)
    (hb : ∀ s1 p1, s1.mem = s.mem → Sound s1 → Readable s1 p1 n → p1.buf < s1.next → place s1 p1 = P →
      Sim (body p1 s1) (y.run s1.mem) (fun r r' s' => AfterCall s1 s' (GH P n p1.buf s1.mem.nbuf) ∧ F s1 s' r r') (fun s' => AfterCall s1 s' (GH P n p1.buf s1.mem.nbuf) ∧ Clear s1 s')) :
    Sim (call (arg .shared p n >>= body) s) (y.run s.mem) (fun r r' s' => AfterCall s s' (GH P n p.buf s.mem.nbuf) ∧ F s s' r r') (fun s' => AfterCall s s' (GH P n p.buf s.mem.nbuf) ∧ Clear s s') := by
  subst eP
  refine call_sim (k := .shared) (G := fresh s.mem.nbuf) (Q := fun v v' s' => F s s' v v') (E := fun s' => Clear s s') (.inr rfl) hs hr fun s1 hm1 hs1 h => ?_
  have hn : s1.next = s.next + 1 := h.next
  have := hb s1 ⟨s.next, p.off⟩ hm1 hs1 (fun b i hi => ?_) (by show s.next < s1.next; omega) h.place_new
  · rw [hm1] at this
    refine this.mono (fun v v' s' h => ⟨h.1, hF _ _ _ _ hm1 (by omega) h.2⟩) fun s' h => ⟨h.1, fun b hb hb' => Freed.ret (h.2 b (by rw [hm1]; exact hb) hb')⟩
  · rw [h.place_new] at hi
    obtain ⟨rest, e, -⟩ := h.top_shared (.inl rfl) hi
    rw [e, Stack.read_new]; rfl

theorem newBox_ret (s s1 s2 : State) (a b : Slice) (hm : s1.mem = s.mem) (hn : s.next ≤ s1.next) (h : NewBox s1 s2 a b) : NewBox s s2.ret a b := ⟨h.1.ret hm hn, by rw [h.2, hm]⟩

end Simd.Borrow
