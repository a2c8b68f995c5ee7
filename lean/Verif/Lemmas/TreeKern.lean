import Verif.Lemmas.TreeFrame
/-
Pieces of function bodies with borrow trees.
-/
namespace Simd.Tree
open Spec
open Borrow (Piece Good1 Good2 inj1 inj2 noOverlap_pt)

variable {α β : Type}

/-! ### From references to raw pointers and back -/

theorem Made.trans {s s1 s2 : State} {p q r : Nat} (h : Made s s1 p q) (hn : s.next ≤ s1.next) (h' : Made s1 s2 q r) : Made s s2 p r :=
  ⟨Nat.le_trans hn h'.lo, h'.hi, fun u hu => (h'.line u (Nat.lt_of_lt_of_le hu hn)).trans (h.line u hu)⟩

theorem Made.old {s s1 s2 : State} {q r : Nat} (hn : s.next ≤ s1.next) (hu : ∀ u, u < s.next → s1.up q u = s.up q u) (h' : Made s1 s2 q r) : Made s s2 q r :=
  ⟨Nat.le_trans hn h'.lo, h'.hi, fun u h => (h'.line u (Nat.lt_of_lt_of_le h hn)).trans (hu u h)⟩

theorem Made.after {s s1 s2 : State} {q r : Nat} {G : Nat → Nat → Loan} (h : Made s s1 q r) (h' : AfterCall s1 s2 G) : Made s s2 q r :=
  ⟨h.lo, Nat.lt_of_lt_of_le h.hi h'.next, fun u hu => by rw [h'.up r h.hi]; exact h.line u hu⟩

theorem Derived.after {s s1 s2 : State} {p r : Ptr} {G : Nat → Nat → Loan} (h : Derived s s1 p r) (h' : AfterCall s1 s2 G) : Derived s s2 p r :=
  ⟨h.toMade.after h', h.off, (h'.home _ h.hi).trans h.home⟩

theorem Derived.trans {s s1 s2 : State} {p q r : Ptr} (h : Derived s s1 p q) (hn : s.next ≤ s1.next) (h' : Derived s1 s2 q r) : Derived s s2 p r :=
  ⟨h.toMade.trans hn h'.toMade, h'.off.trans h.off, h'.home.trans h.home⟩

/-- The state in a call whose argument has been retagged. -/
theorem Retagged.enter {s s1 : State} {k : Kind} {p : Ptr} {n : Nat} (h : Retagged { s with guard := [] :: s.guard } s1 true k p n) :
    s1.next = s.next + 1 ∧ Derived s s1 p ⟨s.next, p.off⟩ ∧ s1.guard.headD [] = [s.next] ∧ ∀ t, t < s.next → s1.up t = s.up t :=
  ⟨h.next, ⟨⟨h.derived.lo, h.derived.hi, h.derived.line⟩, rfl, h.derived.home⟩, by rw [h.guard]; rfl, fun _ ht => h.up_old ht⟩

theorem Readable.enter {s : State} {p : Ptr} {n : Nat} (h : Readable s p n) : Readable { s with guard := [] :: s.guard } p n :=
  ⟨h.1, fun b i hi => ⟨(h.2 b i hi).1, (h.2 b i hi).2.1, fun u hu => by
    have := (h.2 b i hi).2.2 u hu
    unfold State.step at this ⊢
    rw [show State.prot { s with guard := [] :: s.guard } u = s.prot u from by simp [State.prot]]
    exact this⟩⟩

theorem Mutable.enter {s : State} {p : Ptr} {n : Nat} (h : Mutable s p n) : Mutable { s with guard := [] :: s.guard } p n :=
  ⟨h.1, fun b i hi => ⟨(h.2 b i hi).1, (h.2 b i hi).2.1, fun u hu => by
    have := (h.2 b i hi).2.2 u hu
    unfold State.step at this ⊢
    rw [show State.prot { s with guard := [] :: s.guard } u = s.prot u from by simp [State.prot]]
    exact this⟩⟩

theorem bind_ret (x : BProg α) : (x >>= fun a => pure a) = x := by
  funext s
  show BProg.bind x _ s = x s
  unfold BProg.bind
  cases x s <;> rfl

theorem as_ptr_sim {s : State} {p : Ptr} {n : Nat} (hs : Sound s) (hr : Readable s p n) :
    Sim (as_ptr p n s) (.ok () s.mem) (fun r _ s' => AfterCall s s' (G0 (place s p) n p.buf) ∧ Derived s s' p r ∧ Readable s' r n) (fun _ => True) := by
  unfold as_ptr
  rw [← bind_ret (arg .shared p n)]
  refine (call_sim (k := .shared) (body := fun p => pure p) (G := nothing) (o := .ok () s.mem) (Q := fun r _ s' => Derived s s' p r ∧ Readable s' r n) (E := fun _ => True) hs nothing_tag hr fun s1 hm hs1 h => ?_).mono (fun _ _ _ h => h) fun _ _ => trivial
  rw [← hm]
  obtain ⟨hn, hd, hg, -⟩ := h.enter
  exact Sim.ret_left ⟨.refl hs1 _, fun s3 hb => ⟨hb.derived hd, hb.readable (fun t ht => by
    rw [hg, List.mem_singleton] at ht
    subst ht
    exact hs1.self s.next (by omega)) (h.readable (sound_enter hs) hr.enter)⟩⟩

theorem slice_parts_sim {s : State} {p : Ptr} {n : Nat} (hs : Sound s) (hr : Readable s p n) :
    Sim (slice_parts p n s) (.ok () s.mem) (fun r _ s' => AfterCall s s' (G0 (place s p) n p.buf) ∧ Derived s s' p r ∧ Readable s' r n) (fun _ => True) := by
  refine (call_sim (k := .shared) (G := nothing) (o := .ok () s.mem) (Q := fun r _ s' => Derived s s' p r ∧ Readable s' r n) (E := fun _ => True) hs nothing_tag hr fun s1 hm hs1 h => ?_).mono (fun _ _ _ h => h) fun _ _ => trivial
  rw [← hm]
  obtain ⟨hn, hd, hg, -⟩ := h.enter
  have hr1 := h.readable (sound_enter hs) hr.enter
  have key := as_ptr_sim hs1 hr1
  cases hx : as_ptr ⟨s.next, p.off⟩ n s1 with
  | ok r s2 =>
    rw [hx] at key
    obtain ⟨e, h3, h4, h5⟩ := key
    have hpl : place s1 ⟨s.next, p.off⟩ = place s p := h.place_new
    rw [hpl] at h3
    refine ⟨e, h3, fun s3 hb => ⟨hb.derived (hd.trans (Nat.le_of_lt (by show s.next < s1.next; omega)) h4), hb.readable (fun t ht => ?_) h5⟩⟩
    rw [h3.guard, hg, List.mem_singleton] at ht
    subst ht
    rw [h4.line _ (by omega)]
    show s1.up s.next s.next = true
    exact hs1.self _ (by omega)
  | err | panic | ub => rw [hx] at key; exact key.elim

theorem as_mut_ptr_sim {s : State} {p : Ptr} {n : Nat} (hs : Sound s) (hr : Mutable s p n) :
    Sim (as_mut_ptr p n s) (.ok () s.mem) (fun r _ s' => AfterCall s s' (G1 (place s p) n p.buf) ∧ Derived s s' p r ∧ Mutable s' r n) (fun _ => True) := by
  refine Sim.left (x := retag .mut p n) (E' := fun _ => False) (retag_sim hr.readable) ?_
  rintro _ s1 hm ⟨rfl, h⟩
  have h1 := h.after hs hr.1 (.inr rfl)
  have hs1 := h1.sound
  have hr1 := h.mutable hs hr
  rw [← hm]
  show Sim (call (arg .mut ⟨s.next, p.off⟩ n) s1) _ _ _
  rw [← bind_ret (arg .mut ⟨s.next, p.off⟩ n)]
  refine (call_sim (k := .mut) (body := fun p => pure p) (G := nothing) (o := .ok () s1.mem) (Q := fun r _ s' => Derived s1 s' ⟨s.next, p.off⟩ r ∧ Mutable s' r n) (E := fun _ => True) hs1 nothing_tag hr1.readable fun s2 hm hs2 h2 => ?_).mono ?_ fun _ _ => trivial
  · rw [← hm]
    obtain ⟨hn, hd, hg, -⟩ := h2.enter
    exact Sim.ret_left ⟨.refl hs2 _, fun s3 hb => ⟨hb.derived hd, hb.mutable (h2.mutable (sound_enter hs1) hr1.enter)⟩⟩
  · rintro r _ s3 ⟨h3, h4, h5⟩
    rw [h.place_new] at h3
    refine ⟨h1.push h3 (tag1 hr.1) fun b i => ?_, h.derived.trans (by rw [h.next]; omega) h4, h5⟩
    by_cases hi : In (place s p) n b i
    · rw [over_in hi, over_in hi]; exact .inr (.inr (.inr (.inr ⟨_, _, rfl, rfl, h.derived.toMade⟩)))
    · rw [over_out hi, over_out hi]; exact .inl rfl

theorem slice_mut_sim {s : State} {p : Ptr} {n : Nat} (hs : Sound s) (hr : Mutable s p n) :
    Sim (slice_mut p n s) (.ok () s.mem) (fun r _ s' => AfterCall s s' (G1 (place s p) n p.buf) ∧ Derived s s' p r ∧ Mutable s' r n) (fun _ => True) := by
  refine (retag_sim (prot := false) (k := .mut) (E := fun _ => False) hr.readable).mono ?_ (fun _ h => h.elim)
  rintro r _ s1 ⟨rfl, h⟩
  exact ⟨h.after hs hr.1 (.inr rfl), h.derived, h.mutable hs hr⟩

/-! ### Kernels -/

/-- A loop that gets raw pointers to memory it is lent. -/
theorem kern {R : α → α → Prop} {x y : Prog α} {s : State} (hs : Sound s) (h : Ren s.home R x y) {A : Nat → Nat → Prop} (hA : ∀ b b' i, A b i → A b' i → s.home b = s.home b' → b = b')
    {μ : Mem} (hP : Piece s.home A x μ y s.mem) {L W : Nat → Prop} (hu : Uses' L W x) {G : Nat → Nat → Loan}
    (hl : ∀ t i, L t → A t i → Of t (G (s.home t) i) ∧ Allowed s false t (s.home t) i)
    (hw : ∀ t i, W t → A t i → G (s.home t) i = .excl t ∧ Allowed s true t (s.home t) i) :
    Sim (prog x s) (y.run s.mem) (fun a b s' => R a b ∧ s'.next = s.next ∧ AfterCall s s' G) (fun s' => s'.next = s.next ∧ AfterCall s s' G) := by
  have hin : ∀ a ∈ x.trace μ, match a with | .load p n => ∀ i, In p n p.buf i → A p.buf i | .store p n => ∀ i, In p n p.buf i → A p.buf i := fun a ha => by
    have := hP.inside a ha
    cases a <;> exact fun i hi => this _ i hi
  have hut := hu.trace μ
  have key := prog_sim h hA hP (K := fun b i c => CellAfter s (G b i) b (s.cell b i) c) (fun _ => rfl) (fun a ha => by
    have h1 := hin a ha
    have h2 := hut a ha
    cases a with
    | load p n =>
      intro i hi
      obtain ⟨e1, e2⟩ := hl p.buf i h2 (h1 i hi)
      exact ⟨e2.1, e2.2.1, fun c hc => ⟨fun u hu => hc.allowed (.inr e1) hu (e2.2.2 u hu), fun c' h' => hc.step h' (e1.symm.imp id fun h => ⟨h, rfl⟩)⟩⟩
    | store p n =>
      intro i hi
      obtain ⟨e1, e2⟩ := hw p.buf i h2 (h1 i hi)
      exact ⟨e2.1, e2.2.1, fun c hc => ⟨fun u hu => hc.allowed (.inr (.inr e1)) hu (e2.2.2 u hu), fun c' h' => hc.step h' (.inl e1)⟩⟩) (fun b i => .refl ..)
  have fin : ∀ s' : State, Kept s s' → (∀ b i, CellAfter s (G b i) b (s.cell b i) (s'.cell b i)) → AfterCall s s' G := fun s' hk h4 => by
    refine ⟨⟨fun u hu => ?_, ?_, ?_, ?_, ?_, ?_, ?_⟩, Nat.le_of_eq hk.next.symm, hk.guard, fun t ht => ?_, fun t _ => by rw [hk.home], fun t _ => by rw [hk.up], Nat.le_of_eq hk.nbuf.symm, fun b _ _ => hk.size b, fun b _ _ => by rw [hk.freed], fun b _ => by rw [hk.freed], h4⟩
    · rw [hk.next]; rw [prot_eq hk.guard] at hu; exact hs.guard u hu
    · rw [hk.next, hk.home, hk.nbuf]; exact hs.alloc
    · rw [hk.next, hk.up]; exact hs.self
    · rw [hk.next, hk.up]; exact hs.old
    · rw [hk.next, hk.up, hk.home]; exact hs.home
    · rw [hk.next, hk.up]; exact hs.trans
    · rw [hk.next, hk.up]; exact hs.line
    · rw [prot_eq hk.guard]
      cases e : s.prot t
      · rfl
      · exact absurd (hs.guard t e) (by omega)
  exact key.mono (fun a b s' ⟨h1, h2, h3⟩ => ⟨h1, h2.next, fin s' h2 h3⟩) fun s' ⟨h2, h3⟩ => ⟨h2.next, fin s' h2 h3⟩

/-- A loop that reads the source and writes the destination. -/
theorem kern2 {R : (Nat → Nat) → α → α → Prop} {F : Ptr → Ptr → Prog α} {s : State} (hs : Sound s) {p q P Q : Ptr} {n d : Nat} (eP : place s p = P) (eQ : place s q = Q) (hG : Good2 F P n Q d s.mem)
    (hF : ∀ ρ a b, Ren ρ (R ρ) (F ⟨a, P.off⟩ ⟨b, Q.off⟩) (F ⟨ρ a, P.off⟩ ⟨ρ b, Q.off⟩)) (hu : Uses' (· = p.buf) (· = q.buf) (F p q)) (hpq : p.buf ≠ q.buf) (ho : NoOverlap P n Q d)
    (hq : Readable s p n) (hm : Mutable s q d) :
    Sim (prog (F p q) s) ((F P Q).run s.mem) (fun v v' s' => R s.home v v' ∧ s'.next = s.next ∧ AfterCall s s' (G2 P n p.buf Q d q.buf))
      (fun s' => s'.next = s.next ∧ AfterCall s s' (G2 P n p.buf Q d q.buf)) := by
  subst eP eQ
  obtain ⟨μ, hP⟩ := hG s.home p.buf q.buf hpq rfl rfl
  refine kern hs (hF s.home p.buf q.buf) (inj2 ho rfl rfl) hP hu (fun t i ht hi => ?_) fun t i ht hi => ?_
  · cases ht
    rcases hi with ⟨-, h1, h2⟩ | ⟨h, -⟩
    · exact ⟨.inl (over_in ⟨rfl, h1, h2⟩), hq.2 _ _ ⟨rfl, h1, h2⟩⟩
    · exact absurd h hpq
  · cases ht
    rcases hi with ⟨h, -⟩ | ⟨-, h1, h2⟩
    · exact absurd h.symm hpq
    · exact ⟨(over_out fun h' => noOverlap_pt ho h' ⟨rfl, h1, h2⟩).trans (over_in ⟨rfl, h1, h2⟩), hm.2 _ _ ⟨rfl, h1, h2⟩⟩

/-- A loop that only reads the source of a program with source and destination. -/
theorem kern2_read {R : (Nat → Nat) → Nat → α → α → Prop} {F : Ptr → Prog α} {s : State} (hs : Sound s) {p P Q : Ptr} {n d : Nat} (eP : place s p = P) (hG : Good2 (fun p _ => F p) P n Q d s.mem)
    (hF : ∀ ρ a, Ren ρ (R ρ a) (F ⟨a, P.off⟩) (F ⟨ρ a, P.off⟩)) (hu : Uses' (· = p.buf) (fun _ => False) (F p)) {b : Nat} (hb : s.home b = Q.buf) (hpq : p.buf ≠ b) (ho : NoOverlap P n Q d) (hq : Readable s p n) :
    Sim (prog (F p) s) ((F P).run s.mem) (fun v v' s' => R s.home p.buf v v' ∧ s'.next = s.next ∧ AfterCall s s' (G0 P n p.buf)) (fun s' => s'.next = s.next ∧ AfterCall s s' (G0 P n p.buf)) := by
  subst eP
  obtain ⟨μ, hP⟩ := hG s.home p.buf b hpq rfl hb
  refine kern hs (hF s.home p.buf) (inj2 ho rfl hb) hP hu (fun t i ht hi => ?_) fun t i ht hi => ht.elim
  cases ht
  rcases hi with ⟨-, h1, h2⟩ | ⟨h, -⟩
  · exact ⟨.inl (over_in ⟨rfl, h1, h2⟩), hq.2 _ _ ⟨rfl, h1, h2⟩⟩
  · exact absurd h hpq

/-- A loop that only reads. -/
theorem kern1_read {R : (Nat → Nat) → α → α → Prop} {F : Ptr → Prog α} {s : State} (hs : Sound s) {p P : Ptr} {n : Nat} (eP : place s p = P) (hG : Good1 F P n s.mem)
    (hF : ∀ ρ a, Ren ρ (R ρ) (F ⟨a, P.off⟩) (F ⟨ρ a, P.off⟩)) (hu : Uses' (· = p.buf) (fun _ => False) (F p)) (hq : Readable s p n) :
    Sim (prog (F p) s) ((F P).run s.mem) (fun v v' s' => R s.home v v' ∧ s'.next = s.next ∧ AfterCall s s' (G0 P n p.buf)) (fun s' => s'.next = s.next ∧ AfterCall s s' (G0 P n p.buf)) := by
  subst eP
  obtain ⟨μ, hP⟩ := hG s.home p.buf rfl
  refine kern hs (hF s.home p.buf) inj1 hP hu (fun t i ht hi => ?_) fun t i ht hi => ht.elim
  cases ht
  exact ⟨.inl (over_in ⟨rfl, hi.2.1, hi.2.2⟩), hq.2 _ _ ⟨rfl, hi.2.1, hi.2.2⟩⟩

/-- A loop that works in place. -/
theorem kern1 {R : (Nat → Nat) → α → α → Prop} {F : Ptr → Prog α} {s : State} (hs : Sound s) {p P : Ptr} {n : Nat} (eP : place s p = P) (hG : Good1 F P n s.mem)
    (hF : ∀ ρ a, Ren ρ (R ρ) (F ⟨a, P.off⟩) (F ⟨ρ a, P.off⟩)) (hu : Uses' (· = p.buf) (· = p.buf) (F p)) (ht : Mutable s p n) :
    Sim (prog (F p) s) ((F P).run s.mem) (fun v v' s' => R s.home v v' ∧ s'.next = s.next ∧ AfterCall s s' (G1 P n p.buf)) (fun s' => s'.next = s.next ∧ AfterCall s s' (G1 P n p.buf)) := by
  subst eP
  obtain ⟨μ, hP⟩ := hG s.home p.buf rfl
  refine kern hs (hF s.home p.buf) inj1 hP hu (fun t i e hi => ?_) fun t i e hi => ?_
  · cases e
    exact ⟨.inr (over_in ⟨rfl, hi.2.1, hi.2.2⟩), ht.readable.2 _ _ ⟨rfl, hi.2.1, hi.2.2⟩⟩
  · cases e
    exact ⟨over_in ⟨rfl, hi.2.1, hi.2.2⟩, ht.2 _ _ ⟨rfl, hi.2.1, hi.2.2⟩⟩

/-! ### Loans -/

/-- The result with borrow trees is the slice that the call returns without them, as a new reference, made from tag `q`, to its elements of `k` bytes. -/
def Ret (k : Nat) (s : State) (q : Nat) (s' : State) (r r' : Slice) : Prop := FreshSlice k s s' q r r'

/-- Results of functions: they stay what they are when the function returns, and may be seen from the caller. -/
structure Res (R : State → Nat → State → α → β → Prop) : Prop where
  back : ∀ {s0 q s s' a b}, Back s s' → R s0 q s a b → R s0 q s' a b
  old : ∀ {s0 s1 q s a b}, s0.next ≤ s1.next → (∀ u, u < s0.next → s1.up q u = s0.up q u) → R s1 q s a b → R s0 q s a b
  new : ∀ {s0 s1 p q s a b}, s0.next ≤ s1.next → Made s0 s1 p q → R s1 q s a b → R s0 p s a b

theorem Ret.res (k : Nat) : Res (Ret k) :=
  ⟨fun hb h => ⟨by rw [hb.place]; exact h.1, hb.made h.2.1, hb.mutable h.2.2⟩, fun hn hu h => ⟨h.1, h.2.1.old hn hu, h.2.2⟩, fun hn hm h => ⟨h.1, hm.trans hn h.2.1, h.2.2⟩⟩

theorem eq_res : Res (fun _ _ _ (a b : α) => a = b) := ⟨fun _ h => h, fun _ _ h => h, fun _ _ h => h⟩

theorem Ret.after {k : Nat} {s s1 s' : State} {q : Nat} {r r' : Slice} {G : Nat → Nat → Loan} (h : Ret k s1 q s' r r') (h1 : AfterCall s s1 G) (hq : q < s.next := by assumption) : Ret k s q s' r r' :=
  (Ret.res k).old h1.next (fun u _ => by rw [h1.up q hq]) h

theorem over_pt (P : Ptr) (n : Nat) (l : Loan) (G : Nat → Nat → Loan) (b i : Nat) : over P n l G b i = l ∧ In P n b i ∨ over P n l G b i = G b i ∧ ¬ In P n b i := by
  by_cases h : In P n b i
  · exact .inl ⟨over_in h, h⟩
  · exact .inr ⟨over_out h, h⟩

/-- Lending the source only. -/
theorem G2_src {P : Ptr} {n t : Nat} {Q : Ptr} {d u : Nat} (b i : Nat) : G0 P n t b i = .none ∨ G0 P n t b i = G2 P n t Q d u b i := by
  by_cases h : In P n b i
  · exact .inr ((over_in h).trans (over_in h).symm)
  · exact .inl (over_out h)

/-- Lending the destination only. -/
theorem G2_dst {P : Ptr} {n t : Nat} {Q : Ptr} {d u m : Nat} (ho : NoOverlap P n Q d) (hm : m ≤ d) (b i : Nat) : G1 Q m u b i = .none ∨ G1 Q m u b i = G2 P n t Q d u b i := by
  by_cases h : In Q m b i
  · exact .inr ((over_in h).trans ((over_out fun h' => noOverlap_pt ho h' (in_mono hm h)).trans (over_in (in_mono hm h))).symm)
  · exact .inl (over_out h)

theorem none_or {G G' : Nat → Nat → Loan} {s s1 : State} (h : ∀ b i, G' b i = .none ∨ G' b i = G b i) (b i : Nat) : Fits s s1 (G b i) (G' b i) := (h b i).imp id .inl

theorem nothing_or {G : Nat → Nat → Loan} (b i : Nat) : nothing b i = .none ∨ nothing b i = G b i := .inl rfl

/-- Lending a part of the destination with a newer tag. -/
theorem G1_new {P : Ptr} {n t m r : Nat} {s s1 : State} (hm : m ≤ n) (hr : Made s s1 t r) (b i : Nat) : Fits s s1 (G1 P n t b i) (G1 P m r b i) := by
  by_cases h : In P m b i
  · exact .inr (.inr (.inr (.inr ⟨t, r, over_in (in_mono hm h), over_in h, hr⟩)))
  · exact .inl (over_out h)

/-- Lending the source with a newer tag. -/
theorem G0_new {P : Ptr} {n t r : Nat} {s s1 : State} (hr : Made s s1 t r) (b i : Nat) : Fits s s1 (G0 P n t b i) (G0 P n r b i) := by
  by_cases h : In P n b i
  · exact .inr (.inr (.inr (.inl ⟨t, r, .inr (over_in h), over_in h, hr⟩)))
  · exact .inl (over_out h)

/-- Lending what is lent for writing with a newer tag for reading. -/
theorem G10_new {P : Ptr} {n t r : Nat} {s s1 : State} (hr : Made s s1 t r) (b i : Nat) : Fits s s1 (G1 P n t b i) (G0 P n r b i) := by
  by_cases h : In P n b i
  · exact .inr (.inr (.inr (.inl ⟨t, r, .inl (over_in h), over_in h, hr⟩)))
  · exact .inl (over_out h)

/-- Lending the source with a newer tag and the destination with the same. -/
theorem G2_new {P Q : Ptr} {n d t r u : Nat} {s s1 : State} (hr : Made s s1 t r) (b i : Nat) : Fits s s1 (G2 P n t Q d u b i) (G2 P n r Q d u b i) := by
  by_cases h : In P n b i
  · exact .inr (.inr (.inr (.inl ⟨t, r, .inr (over_in h), over_in h, hr⟩)))
  · exact .inr (.inl ((over_out h).trans (over_out h).symm))

theorem G1_part {P : Ptr} {n t m : Nat} (hm : m ≤ n) (b i : Nat) : G1 P m t b i = .none ∨ G1 P m t b i = G1 P n t b i := by
  by_cases h : In P m b i
  · exact .inr ((over_in h).trans (over_in (in_mono hm h)).symm)
  · exact .inl (over_out h)

theorem G2_readable {s s1 : State} {p : Ptr} {n d u : Nat} {Q : Ptr} (h : AfterCall s s1 (G2 (place s p) n p.buf Q d u)) (_ : p.buf < s.next) (hr : Readable s p n) : Readable s1 p n :=
  h.readable (fun _ _ hi => .inr (.inl (over_in hi))) hr

theorem G2_mutable {s s1 : State} {q : Ptr} {n d t : Nat} {P : Ptr} (ho : NoOverlap P n (place s q) d) (h : AfterCall s s1 (G2 P n t (place s q) d q.buf)) (_ : q.buf < s.next) (hr : Mutable s q d) :
    Mutable s1 q d :=
  h.mutable (fun b i hi => .inr (.inr ((over_out fun h' => noOverlap_pt ho h' hi).trans (over_in hi)))) hr

theorem G0_readable {s s1 : State} {p : Ptr} {n : Nat} (h : AfterCall s s1 (G0 (place s p) n p.buf)) (_ : p.buf < s.next) (hr : Readable s p n) : Readable s1 p n :=
  h.readable (fun _ _ hi => .inr (.inl (over_in hi))) hr

theorem G1_mutable {s s1 : State} {p : Ptr} {n : Nat} (h : AfterCall s s1 (G1 (place s p) n p.buf)) (_ : p.buf < s.next) (hr : Mutable s p n) : Mutable s1 p n :=
  h.mutable (fun _ _ hi => .inr (.inr (over_in hi))) hr

/-! ### Pieces -/

/-- Making a raw pointer to the source. -/
def IsRaw (mk : Ptr → Nat → BProg Ptr) : Prop := mk = as_ptr ∨ mk = slice_parts

theorem IsRaw.sim {mk : Ptr → Nat → BProg Ptr} (h : IsRaw mk) {s : State} {p : Ptr} {n : Nat} (hs : Sound s) (hr : Readable s p n) :
    Sim (mk p n s) (.ok () s.mem) (fun r _ s' => AfterCall s s' (G0 (place s p) n p.buf) ∧ Derived s s' p r ∧ Readable s' r n) (fun _ => True) := by
  rcases h with rfl | rfl
  · exact as_ptr_sim hs hr
  · exact slice_parts_sim hs hr

/-- `let r ← mk p n; K r`, where `K` only reads. -/
theorem check_tail {mk : Ptr → Nat → BProg Ptr} (hmk : IsRaw mk) {K : Ptr → Prog β} {s : State} {p P : Ptr} {n : Nat} (hs : Sound s) (hr : Readable s p n) (eP : place s p = P)
    (hG : Good1 K P n s.mem) (hF : ∀ ρ a, RenE ρ (K ⟨a, P.off⟩) (K ⟨ρ a, P.off⟩)) (hu : ∀ a : Ptr, Uses' (· = a.buf) (fun _ => False) (K a)) :
    Sim ((mk p n >>= fun r => prog (K r)) s) ((K P).run s.mem) (fun v v' s' => v = v' ∧ AfterCall s s' (G0 P n p.buf)) (fun s' => AfterCall s s' (G0 P n p.buf)) := by
  subst eP
  refine Sim.left (hmk.sim hs hr) ?_
  rintro r s1 hm ⟨h1, h2, h3⟩
  rw [← hm] at hG ⊢
  exact (kern1_read (R := fun _ => Eq) h1.sound h2.place hG hF (hu r) h3).mono (fun v v' s' ⟨e, _, h⟩ => ⟨e, h1.push h (tag0 hr.1) (G0_new h2.toMade)⟩) fun s' ⟨_, h⟩ => h1.push h (tag0 hr.1) (G0_new h2.toMade)

/-- A call of a function that gets `&src` and only reads it. -/
theorem read_call {K : Ptr → Prog β} {s : State} {p P : Ptr} {n : Nat} (hs : Sound s) (hr : Readable s p n) (eP : place s p = P)
    (hk : ∀ s1 : State, s1.mem = s.mem → Sound s1 → place s1 ⟨s.next, p.off⟩ = P → (∀ t, t < s.next → s1.home t = s.home t) → Readable s1 ⟨s.next, p.off⟩ n →
      Sim (prog (K ⟨s.next, p.off⟩) s1) ((K P).run s1.mem) (fun v v' s' => v = v' ∧ s'.next = s1.next ∧ AfterCall s1 s' (G0 P n s.next)) (fun s' => s'.next = s1.next ∧ AfterCall s1 s' (G0 P n s.next))) :
    Sim (call (arg .shared p n >>= fun p => prog (K p)) s) ((K P).run s.mem) (fun v v' s' => v = v' ∧ AfterCall s s' (G0 P n p.buf)) (fun s' => AfterCall s s' (G0 P n p.buf)) := by
  subst eP
  refine (call_sim (k := .shared) (G := nothing) (Q := fun v v' _ => v = v') (E := fun _ => True) hs nothing_tag hr fun s1 hm hs1 h => ?_).mono (fun _ _ _ h => ⟨h.2, h.1⟩) fun _ h => h.1
  rw [← hm]
  exact (hk s1 hm hs1 h.place_new (fun t ht => h.home_old ht) (h.readable (sound_enter hs) hr.enter)).mono (fun v v' s' h => ⟨h.2.2, fun _ _ => h.1⟩) fun s' h => ⟨h.2, fun _ _ => trivial⟩

theorem read_call1 {K : Ptr → Prog β} {s : State} {p P : Ptr} {n : Nat} (hs : Sound s) (hr : Readable s p n) (eP : place s p = P) (hG : Good1 K P n s.mem)
    (hF : ∀ ρ a, RenE ρ (K ⟨a, P.off⟩) (K ⟨ρ a, P.off⟩)) (hu : ∀ a : Ptr, Uses' (· = a.buf) (fun _ => False) (K a)) :
    Sim (call (arg .shared p n >>= fun p => prog (K p)) s) ((K P).run s.mem) (fun v v' s' => v = v' ∧ AfterCall s s' (G0 P n p.buf)) (fun s' => AfterCall s s' (G0 P n p.buf)) :=
  read_call hs hr eP fun s1 hm hs1 hP _ hq => kern1_read (R := fun _ => Eq) hs1 hP (hm ▸ hG) hF (hu _) hq

theorem read_call2 {K : Ptr → Prog β} {s : State} {p q P Q : Ptr} {n d : Nat} (hs : Sound s) (hr : Readable s p n) (eP : place s p = P) (eQ : place s q = Q) (hq : q.buf < s.next)
    (ho : NoOverlap P n Q d) (hG : Good2 (fun p _ => K p) P n Q d s.mem)
    (hF : ∀ ρ a, RenE ρ (K ⟨a, P.off⟩) (K ⟨ρ a, P.off⟩)) (hu : ∀ a : Ptr, Uses' (· = a.buf) (fun _ => False) (K a)) :
    Sim (call (arg .shared p n >>= fun p => prog (K p)) s) ((K P).run s.mem) (fun v v' s' => v = v' ∧ AfterCall s s' (G0 P n p.buf)) (fun s' => AfterCall s s' (G0 P n p.buf)) :=
  read_call hs hr eP fun s1 hm hs1 hP hh hqq => kern2_read (R := fun _ _ => Eq) (b := q.buf) hs1 hP (hm ▸ hG) hF (hu _) (by rw [hh _ hq, ← eQ]; rfl) (Nat.ne_of_gt hq) ho hqq

/-- `let r ← mk p n; K r q`, where `K` reads the source and writes the destination. -/
theorem copy_kern {mk : Ptr → Nat → BProg Ptr} (hmk : IsRaw mk) {K : Ptr → Ptr → Prog β} {s : State} {p q P Q : Ptr} {n d : Nat} (hs : Sound s) (hr : Readable s p n) (hm : Mutable s q d)
    (hq : q.buf < s.next) (eP : place s p = P) (eQ : place s q = Q) (ho : NoOverlap P n Q d) (hG : Good2 K P n Q d s.mem)
    (hF : ∀ ρ a b, RenE ρ (K ⟨a, P.off⟩ ⟨b, Q.off⟩) (K ⟨ρ a, P.off⟩ ⟨ρ b, Q.off⟩)) (hu : ∀ a b : Ptr, Uses' (· = a.buf) (· = b.buf) (K a b)) :
    Sim ((mk p n >>= fun r => prog (K r q)) s) ((K P Q).run s.mem) (fun v v' s' => v = v' ∧ AfterCall s s' (G2 P n p.buf Q d q.buf)) (fun s' => AfterCall s s' (G2 P n p.buf Q d q.buf)) := by
  subst eP eQ
  refine Sim.left (hmk.sim hs hr) ?_
  rintro r s1 hm' ⟨h1, h2, h3⟩
  rw [← hm'] at hG ⊢
  have h1' := h1.weaken (G2_src (Q := place s q) (d := d) (u := q.buf))
  exact (kern2 (R := fun _ => Eq) h1.sound h2.place (AfterCall.place h1 hq) hG hF (hu r q) (by have := h2.lo; omega) ho h3 (G2_mutable ho h1' hq hm)).mono
    (fun v v' s' ⟨e, _, h⟩ => ⟨e, h1'.push h (tag2 hr.1 hq) (G2_new h2.toMade)⟩) fun s' ⟨_, h⟩ => h1'.push h (tag2 hr.1 hq) (G2_new h2.toMade)

/-- `let r ← slice_mut q m; return ⟨r, l⟩`. -/
theorem copy_end {s : State} {q Q : Ptr} {m l k : Nat} (hk : m = k * l) (hs : Sound s) (hm : Mutable s q m) (eQ : place s q = Q) {E : State → Prop} :
    Sim ((slice_mut q m >>= fun r => pure ⟨r, l⟩) s) ((pure ⟨Q, l⟩ : Prog Slice).run s.mem) (fun r r' s' => AfterCall s s' (G1 Q m q.buf) ∧ s.next ≤ r.ptr.buf ∧ Ret k s q.buf s' r r') E := by
  subst eQ
  refine Sim.left (slice_mut_sim hs hm) ?_
  rintro r s1 hm' ⟨h1, h2, h3⟩
  rw [← hm']
  refine Sim.ret ⟨h1, h2.lo, ?_, h2.toMade, hk ▸ h3⟩
  rw [h2.place]

/-- The body of a copying function from where the raw pointer is made. -/
theorem copy_tail {mk : Ptr → Nat → BProg Ptr} (hmk : IsRaw mk) {K : Ptr → Ptr → Prog Unit} {s : State} {p q P Q : Ptr} {n d m l k : Nat} (hk : m = k * l) (hs : Sound s) (hr : Readable s p n) (hm : Mutable s q d)
    (hq : q.buf < s.next) (eP : place s p = P) (eQ : place s q = Q) (ho : NoOverlap P n Q d) (hmd : m ≤ d) (hG : Good2 K P n Q d s.mem)
    (hF : ∀ ρ a b, RenE ρ (K ⟨a, P.off⟩ ⟨b, Q.off⟩) (K ⟨ρ a, P.off⟩ ⟨ρ b, Q.off⟩)) (hu : ∀ a b : Ptr, Uses' (· = a.buf) (· = b.buf) (K a b)) :
    Sim ((do let r ← mk p n; prog (K r q); let r ← slice_mut q m; return ⟨r, l⟩ : BProg Slice) s) ((do K P Q; return ⟨Q, l⟩ : Prog Slice).run s.mem)
      (fun r r' s' => AfterCall s s' (G2 P n p.buf Q d q.buf) ∧ Ret k s q.buf s' r r') (fun s' => AfterCall s s' (G2 P n p.buf Q d q.buf)) := by
  have hp := hr.1
  have key := copy_kern hmk hs hr hm hq eP eQ ho hG hF hu
  have := Sim.bind (f := fun _ => slice_mut q m >>= fun r => pure (⟨r, l⟩ : Slice)) (g := fun _ => (pure ⟨Q, l⟩ : Prog Slice))
    (Q' := fun r r' s' => AfterCall s s' (G2 P n p.buf Q d q.buf) ∧ Ret k s q.buf s' r r') key fun _ _ s1 _ h => by
      subst eP eQ
      exact (copy_end (E := fun _ => False) hk h.2.sound ((G2_mutable ho h.2 hq hm).mono hmd) (AfterCall.place h.2 hq)).mono
        (fun r r' s' h' => ⟨h.2.push h'.1 (tag2 hp hq) (none_or (G2_dst ho hmd)), h'.2.2.after h.2 hq⟩) fun _ h => h.elim
  have e : ((mk p n >>= fun r => prog (K r q)) >>= fun _ => slice_mut q m >>= fun r => pure (⟨r, l⟩ : Slice)) s = (do let r ← mk p n; prog (K r q); let r ← slice_mut q m; return ⟨r, l⟩ : BProg Slice) s := by
    show BProg.bind (BProg.bind _ _) _ s = BProg.bind _ _ s
    unfold BProg.bind
    cases mk p n s <;> rfl
  rw [e] at this
  exact this

/-- The body of an in-place function from where the raw pointer is made. -/
theorem inplace_kern {K : Ptr → Prog β} {s : State} {p P : Ptr} {n : Nat} (hs : Sound s) (hm : Mutable s p n) (eP : place s p = P) (hG : Good1 K P n s.mem)
    (hF : ∀ ρ a, RenE ρ (K ⟨a, P.off⟩) (K ⟨ρ a, P.off⟩)) (hu : ∀ a : Ptr, Uses' (· = a.buf) (· = a.buf) (K a)) {C : Ptr → β → BProg α} {o : β → Prog α} {Q : α → α → State → Prop} {E : State → Prop}
    (hC : ∀ v r s1, AfterCall s s1 (G1 P n p.buf) → Made s s1 p.buf r.buf → r.buf < s1.next → place s1 r = P → Mutable s1 r n → (K P).run s.mem = .ok v s1.mem → Sim (C r v s1) ((o v).run s1.mem) Q E)
    (hE : ∀ s1, AfterCall s s1 (G1 P n p.buf) → E s1) :
    Sim ((as_mut_ptr p n >>= fun r => prog (K r) >>= C r) s) ((K P >>= o).run s.mem) Q E := by
  subst eP
  refine Sim.left (as_mut_ptr_sim hs hm) ?_
  rintro r s1 hm' ⟨h1, h2, h3⟩
  rw [← hm'] at hG ⊢
  have hf := G1_new (P := place s p) (Nat.le_refl n) h2.toMade
  refine Sim.bind ((kern1 (R := fun _ => Eq) h1.sound h2.place hG hF (hu r) h3).mono (fun _ _ _ h => h) fun s' ⟨_, h⟩ => hE s' (h1.push h (tag1 hm.1) hf)) ?_
  rintro v v' s2 hrun ⟨rfl, hn, h⟩
  refine hC v r s2 (h1.push h (tag1 hm.1) hf) (h2.toMade.after h) (by have := h2.hi; omega) ((AfterCall.place h h2.hi).trans h2.place) (h.mutable (fun b i hi => ?_) h3) (hm' ▸ hrun)
  rw [h2.place] at hi
  exact .inr (.inr (over_in hi))

/-- `as_mut_ptr`, work, `slice_mut`. -/
theorem inplace_tail {K : Ptr → Prog Unit} {s : State} {p P : Ptr} {n m l k : Nat} (hk : m = k * l) (hs : Sound s) (hm : Mutable s p n) (eP : place s p = P) (hmn : m ≤ n) (hG : Good1 K P n s.mem)
    (hF : ∀ ρ a, RenE ρ (K ⟨a, P.off⟩) (K ⟨ρ a, P.off⟩)) (hu : ∀ a : Ptr, Uses' (· = a.buf) (· = a.buf) (K a)) :
    Sim ((do let dst ← as_mut_ptr p n; prog (K dst); let r ← slice_mut dst m; return ⟨r, l⟩ : BProg Slice) s) ((do K P; return ⟨P, l⟩ : Prog Slice).run s.mem)
      (fun r r' s' => AfterCall s s' (G1 P n p.buf) ∧ Ret k s p.buf s' r r') (fun s' => AfterCall s s' (G1 P n p.buf)) :=
  inplace_kern hs hm eP hG hF hu (fun v r s1 h1 h2 h3 h4 h5 _ =>
    (copy_end (E := fun _ => False) hk h1.sound (h5.mono hmn) h4).mono (fun r r' s' h' => ⟨h1.push h'.1 (tag1 hm.1) (G1_new hmn h2), (Ret.res k).new h1.next h2 h'.2.2⟩) fun _ h => h.elim) fun _ h => h

/-- `Sim.bind` for two steps of the program with borrow trees. -/
theorem Sim.bind2 {α' γ δ : Type} {x : BProg α'} {f : α' → BProg α} {h : α → BProg γ} {y : Prog β} {g : β → Prog δ} {s : State} {m : Mem} {Q : α → β → State → Prop} {E : State → Prop}
    {Q' : γ → δ → State → Prop} (hx : Sim ((x >>= f) s) (y.run m) Q E) (hf : ∀ a b s', y.run m = .ok b s'.mem → Q a b s' → Sim (h a s') ((g b).run s'.mem) Q' E) :
    Sim ((x >>= fun a => f a >>= h) s) ((y >>= g).run m) Q' E := by
  have := Sim.bind hx hf
  have e : ((x >>= f) >>= h) s = (x >>= fun a => f a >>= h) s := by
    show BProg.bind (BProg.bind _ _) _ s = BProg.bind _ _ s
    unfold BProg.bind
    cases x s <;> rfl
  rwa [e] at this

theorem prog_bind (x : Prog α) (f : α → Prog β) : prog (x >>= f) = prog x >>= fun a => prog (f a) := by
  funext s
  show prog (Prog.bind x f) s = BProg.bind (prog x) _ s
  induction x generalizing s with
  | load p n k ih =>
    show prog (.load p n fun bs => (k bs).bind f) s = _
    unfold BProg.bind prog
    cases s.touch (false) p n with
    | none => rfl
    | some S =>
      cases s.mem.read ⟨s.home p.buf, p.off⟩ n with
      | none => rfl
      | some bs => exact ih bs _
  | store p bs k ih =>
    show prog (.store p bs (k.bind f)) s = _
    unfold BProg.bind prog
    cases s.touch (true) p bs.length with
    | none => rfl
    | some S =>
      dsimp only
      split
      · exact ih _
      · rfl
  | chk p k ih =>
    show prog (.chk p (k.bind f)) s = _
    unfold BProg.bind prog
    split
    · exact ih _
    · rfl
  | alloc n k ih => exact ih _ _
  | _ => rfl

/-! ### Whole functions -/

/-- A reference as argument leaves other memory as it is. -/
theorem Retagged.other {s s1 : State} {k : Kind} {p q : Ptr} {n d : Nat} (h : Retagged { s with guard := [] :: s.guard } s1 true k p n) (hs : Sound s) (hm : Mutable s q d)
    (ho : ∀ b i, In (Tree.place s p) n b i → ¬ In (Tree.place s q) d b i) : Mutable s1 q d := by
  have hq := hm.1
  obtain ⟨hn, hd, hg, hu⟩ := h.enter
  have hpq : Tree.place s1 q = Tree.place s q := h.place_old hq
  refine ⟨by omega, fun b i hi => ?_⟩
  rw [hpq] at hi
  have ha := (hm.enter).2 b i hi
  refine ⟨by rw [h.mem]; exact ha.1, by rw [h.freed]; exact ha.2.1, fun u hu' => ?_⟩
  unfold State.step
  rw [hu _ hq]
  by_cases e : u = s.next
  · subst e
    have hacc : (s1.cell b i s.next).acc = false := by
      cases e : (s1.cell b i s.next).acc
      · rfl
      · exact (ho b i ((h.new b i).2.1 e) hi).elim
    have hup : s.up q.buf s.next = false := by
      cases e : s.up q.buf s.next
      · rfl
      · exact absurd (hs.old _ _ hq e) (by omega)
    rw [hup]
    rcases hc : s1.cell b i s.next with ⟨c, a⟩
    rw [hc] at hacc
    cases hacc
    cases c <;> cases s1.prot s.next <;> rfl
  · have hu2 : s.Has b u := ⟨by have := hu'.1; omega, (h.home_old (by have := hu'.1; show u < s.next; omega)).symm.trans hu'.2⟩
    have := ha.2.2 u hu2
    have he : s1.cell b i u = s.cell b i u := h.outside b i (fun h' => ho b i h' hi) u hu2
    rw [he, h.prot_old e]
    exact this

/-- A function that gets `&src` and a destination. -/
theorem copy_call {body : Ptr → BProg α} {y : Prog β} {s : State} {p q P Q : Ptr} {n d : Nat} {R : State → Nat → State → α → β → Prop} (hR : Res R) (hs : Sound s) (hr : Readable s p n) (hm : Mutable s q d)
    (hq : q.buf < s.next) (eP : place s p = P) (eQ : place s q = Q) (ho : NoOverlap P n Q d)
    (hb : ∀ s1 p1, s1.mem = s.mem → Sound s1 → Readable s1 p1 n → Mutable s1 q d → q.buf < s1.next → p1.buf < s1.next → place s1 p1 = P → place s1 q = Q →
      Sim (body p1 s1) (y.run s1.mem) (fun r r' s' => AfterCall s1 s' (G2 P n p1.buf Q d q.buf) ∧ R s1 q.buf s' r r') (fun s' => AfterCall s1 s' (G2 P n p1.buf Q d q.buf))) :
    Sim (call (arg .shared p n >>= body) s) (y.run s.mem) (fun r r' s' => AfterCall s s' (G2 P n p.buf Q d q.buf) ∧ R s q.buf s' r r') (fun s' => AfterCall s s' (G2 P n p.buf Q d q.buf)) := by
  subst eP eQ
  refine (call_sim (k := .shared) (G := over (place s q) d (.excl q.buf) nothing) (Q := fun v v' s' => R s q.buf s' v v') (E := fun _ => True) hs (over_tag (excl_tag hq) nothing_tag) hr
    fun s1 hm1 hs1 h => ?_).mono (fun _ _ _ h => h) fun _ h => h.1
  rw [← hm1]
  obtain ⟨hn, hd, hg, hu⟩ := h.enter
  have hpq : place s1 q = place s q := h.place_old hq
  have hmq : Mutable s1 q d := h.other hs hm fun b i h1 h2 => noOverlap_pt ho h1 h2
  exact (hb s1 ⟨s.next, p.off⟩ hm1 hs1 (h.readable (sound_enter hs) hr.enter) hmq (by omega) (by show s.next < s1.next; omega) h.place_new hpq).mono
    (fun v v' s' h' => ⟨h'.1, fun s3 hb => hR.back hb (hR.old (by omega) (fun u _ => by rw [hu _ hq]) h'.2)⟩) fun s' h => ⟨h, fun _ _ => trivial⟩

/-- A function that gets `&data` only. -/
theorem check_call {body : Ptr → BProg α} {y : Prog β} {s : State} {p P : Ptr} {n : Nat} {R : α → β → Prop} (hs : Sound s) (hr : Readable s p n) (eP : place s p = P)
    (hb : ∀ s1 p1, s1.mem = s.mem → Sound s1 → Readable s1 p1 n → s.next ≤ s1.next → p1.buf < s1.next → place s1 p1 = P →
      Sim (body p1 s1) (y.run s1.mem) (fun v v' s' => R v v' ∧ AfterCall s1 s' (G0 P n p1.buf)) (fun s' => AfterCall s1 s' (G0 P n p1.buf))) :
    Sim (call (arg .shared p n >>= body) s) (y.run s.mem) (fun v v' s' => R v v' ∧ AfterCall s s' (G0 P n p.buf)) (fun s' => AfterCall s s' (G0 P n p.buf)) := by
  subst eP
  refine (call_sim (k := .shared) (G := nothing) (Q := fun v v' _ => R v v') (E := fun _ => True) hs nothing_tag hr fun s1 hm1 hs1 h => ?_).mono (fun _ _ _ h => ⟨h.2, h.1⟩) fun _ h => h.1
  rw [← hm1]
  obtain ⟨hn, -⟩ := h.enter
  exact (hb s1 ⟨s.next, p.off⟩ hm1 hs1 (h.readable (sound_enter hs) hr.enter) (by omega) (by show s.next < s1.next; omega) h.place_new).mono (fun v v' s' h => ⟨h.2, fun _ _ => h.1⟩) fun s' h => ⟨h, fun _ _ => trivial⟩

/-- A function that gets `&mut data`. -/
theorem inplace_call {body : Ptr → BProg α} {y : Prog β} {s : State} {p P : Ptr} {n : Nat} {R : State → Nat → State → α → β → Prop} (hR : Res R) (hs : Sound s) (hm : Mutable s p n) (eP : place s p = P)
    (hb : ∀ s1 p1, s1.mem = s.mem → Sound s1 → Mutable s1 p1 n → s.next ≤ p1.buf → p1.buf < s1.next → place s1 p1 = P → Mutable s1 p1 n →
      Sim (body p1 s1) (y.run s1.mem) (fun r r' s' => AfterCall s1 s' (G1 P n p1.buf) ∧ R s1 p1.buf s' r r') (fun s' => AfterCall s1 s' (G1 P n p1.buf))) :
    Sim (call (arg .mut p n >>= body) s) (y.run s.mem) (fun r r' s' => AfterCall s s' (G1 P n p.buf) ∧ R s p.buf s' r r') (fun s' => AfterCall s s' (G1 P n p.buf)) := by
  subst eP
  refine (call_sim (k := .mut) (G := nothing) (Q := fun v v' s' => R s p.buf s' v v') (E := fun _ => True) hs nothing_tag hm.readable fun s1 hm1 hs1 h => ?_).mono (fun _ _ _ h => h) fun _ h => h.1
  rw [← hm1]
  obtain ⟨hn, hd, -⟩ := h.enter
  have hmu := h.mutable (sound_enter hs) hm.enter
  exact (hb s1 ⟨s.next, p.off⟩ hm1 hs1 hmu (Nat.le_refl _) (by show s.next < s1.next; omega) h.place_new hmu).mono
    (fun v v' s' h' => ⟨h'.1, fun s3 hb => hR.back hb (hR.new (by omega) hd.toMade h'.2)⟩) fun s' h => ⟨h, fun _ _ => trivial⟩

/-- In a function that works in place: a call that gets `&*data` and only reads. -/
theorem inplace_read {x : Ptr → BProg α} {y : Prog β} {s : State} {p P : Ptr} {n : Nat} {R : α → β → Prop} (hs : Sound s) (eP : place s p = P) (ht : Mutable s p n)
    (hx : ∀ s1 c, s1.mem = s.mem → Sound s1 → Readable s1 c n → c.buf < s1.next → place s1 c = P → Sim (x c s1) (y.run s1.mem) (fun v v' s' => R v v' ∧ AfterCall s1 s' (G0 P n c.buf)) (fun s' => AfterCall s1 s' (G0 P n c.buf))) :
    Sim ((retag .shared p n >>= x) s) (y.run s.mem) (fun v v' s' => R v v' ∧ AfterCall s s' (G1 P n p.buf)) (fun s' => AfterCall s s' (G1 P n p.buf)) := by
  subst eP
  refine Sim.left (x := retag .shared p n) (E' := fun _ => False) (retag_sim ht.readable) ?_
  rintro _ s1 hm ⟨rfl, h⟩
  rw [← hm]
  have h1 := h.after hs ht.1 (.inr rfl)
  have key : ∀ s', AfterCall s1 s' (G0 (place s p) n s.next) → AfterCall s s' (G1 (place s p) n p.buf) := fun s' h' => h1.push h' (tag1 ht.1) (G10_new h.derived.toMade)
  exact (hx s1 ⟨s.next, p.off⟩ hm h1.sound (h.readable hs ht.readable) h.derived.hi h.place_new).mono (fun v v' s' h => ⟨h.1, key _ h.2⟩) fun s' h => key _ h

end Simd.Tree
