import Verif.Lemmas.BorrowSection
import Verif.Lemmas.BorrowFns
/-
`par_encode` with borrow stacks: the code before and after the parallel section.
-/
namespace Simd.Borrow
open Spec Simd.Base64

variable {s s' : State} {P Q sc dc : Ptr} {i : Option Isa} {config : Simd.Base64.Config} {xs : List Byte}

theorem bind_pure (x : BProg α) : (x >>= pure) = x := by
  funext s
  show BProg.bind x _ s = _
  unfold BProg.bind
  cases x s <;> rfl

theorem lift_left {a : α} {s : State} : Sim (prog (Simd.liftO (some a)) s) (.ok () s.mem) (fun b _ s' => b = a ∧ s' = s) (fun _ => False) := ⟨rfl, rfl, rfl⟩

theorem assert_left {c : Bool} (h : c = true) {s : State} : Sim (prog (Simd.assert c) s) (.ok () s.mem) (fun _ _ s' => s' = s) (fun _ => False) := by
  subst h; exact ⟨rfl, rfl⟩

/-- `f(&mut *p)`, where `f` returns a part of what it is given. -/
theorem reborrow_call {body : Ptr → BProg Ptr} {p : Ptr} {n m : Nat} (hs : Sound s) (hr : Mutable s p n)
    (hb : ∀ s2 a, s2.mem = s.mem → Sound s2 → s.next ≤ a.buf → a.buf < s2.next → a.off = p.off → s2.home a.buf = s.home p.buf →
      (∀ b i, In (place s p) n b i → ∃ rest, s2.stack b i = ⟨.unique, a.buf, some s2.frame⟩ :: rest) →
      Sim (body a s2) (.ok () s.mem) (fun r _ s3 => AfterCall s2 s3 (G1 (place s p) n a.buf) ∧ Derived s s3 p r ∧ OnTop s3.ret .unique r m) (fun _ => False)) :
    Sim ((retag .mut p n >>= fun a => call (arg .mut a n >>= body)) s) (.ok () s.mem) (fun r _ s' => AfterCall s s' (G1 (place s p) n p.buf) ∧ Derived s s' p r ∧ OnTop s' .unique r m) (fun _ => True) := by
  refine Sim.left (x := retag .mut p n) (E' := fun _ => False) (retag_sim fun b i hi => ?_) ?_
  · rw [Kind.apply, Option.isSome_map]; exact hr b i hi
  rintro _ s1 hm ⟨rfl, h⟩
  have hs1 := h.sound hs (by decide) (fun f hf => by cases hf)
  have hr1 : Mutable s1 ⟨s.next, p.off⟩ n := fun b i hi => by
    rw [h.place_new] at hi
    obtain ⟨rest, e, -⟩ := h.top_mut hi
    rw [e, Stack.write_new]; rfl
  refine (call_sim (k := .mut) (G := nothing) (o := .ok () s.mem) (Q := fun r _ s' => Derived s s' p r ∧ OnTop s' .unique r m) (E := fun _ => True) (.inl rfl) hs1 hr1 fun s2 hm2 hs2 h2 => ?_).mono ?_ fun _ _ => trivial
  · simp only [↓reduceIte]
    rw [h.place_new]
    have hn1 := h.next
    have hn2 : s2.next = s1.next + 1 := h2.next
    refine (hb s2 ⟨s1.next, p.off⟩ (hm2.trans hm) hs2 (by dsimp only; omega) (by dsimp only; omega) rfl (h2.home_new.trans h.home_new) fun b i hi => ?_).mono
      (fun r _ s3 h3 => ⟨h3.1, ⟨h3.2.1.lo, h3.2.1.hi, h3.2.1.off, h3.2.1.home⟩, h3.2.2⟩) fun _ h => h.elim
    obtain ⟨rest, e, -⟩ := h2.top_mut (b := b) (i := i) (by rw [show place { s1 with frame := s1.frame + 1 } ⟨s.next, p.off⟩ = place s p from h.place_new]; exact hi)
    refine ⟨rest, e.trans ?_⟩
    rw [h2.frame]
  · rintro r _ s' ⟨h3, h4, h5⟩
    simp only [↓reduceIte] at h3
    rw [h.place_new] at h3
    exact ⟨h.under (.inl rfl) h3, h4, h5⟩

/-- `&mut p[..l]`. -/
theorem index_mut_sim {p : Ptr} {n l : Nat} (hs : Sound s) (hr : Mutable s p n) (hl : l ≤ n) :
    Sim ((retag .mut p n >>= fun a => call (arg .mut a n >>= fun a => prog (Simd.assert (l ≤ n)) >>= fun _ => retag .mut a l)) s) (.ok () s.mem)
      (fun r _ s' => AfterCall s s' (G1 (place s p) n p.buf) ∧ Derived s s' p r ∧ OnTop s' .unique r l) (fun _ => True) := by
  refine reborrow_call hs hr fun s2 a hm2 hs2 ha1 ha2 ha3 ha4 ht => ?_
  refine Sim.left (Q := fun _ s' => s' = s2) (assert_left (decide_eq_true hl)) ?_
  rintro _ s2 _ rfl
  have hp : place s2 a = place s p := by unfold place; rw [ha3, ha4]
  rw [← hm2]
  refine (retag_sim (E := fun _ => False) fun b i hi => ?_).mono ?_ fun _ h => h.elim
  · rw [hp] at hi
    obtain ⟨rest, e⟩ := ht b i (in_mono hl hi)
    rw [Kind.apply, e, Stack.write_new]; rfl
  · rintro _ _ s3 ⟨rfl, h⟩
    have h3 := h.after_mut
    rw [hp] at h3
    refine ⟨h3.weaken (G1_part hl), ⟨by dsimp only; omega, h.derived.hi, ha3, h.home_new.trans ha4⟩, OnTop.ret fun b i hi => ?_⟩
    rw [h.place_new] at hi
    obtain ⟨rest, e, -⟩ := h.top_mut hi
    exact ⟨rest, e⟩

/-- `p.par_chunks_mut(..)`. -/
theorem chunks_mut_sim {p : Ptr} {n : Nat} (hs : Sound s) (hr : Mutable s p n) :
    Sim ((retag .mut p n >>= fun a => call (arg .mut a n)) s) (.ok () s.mem)
      (fun r _ s' => AfterCall s s' (G1 (place s p) n p.buf) ∧ Derived s s' p r ∧ OnTop s' .unique r n) (fun _ => True) := by
  have := reborrow_call (m := n) (body := pure) hs hr fun s2 a hm2 hs2 ha1 ha2 ha3 ha4 ht => by
    rw [← hm2]
    refine Sim.ret_left ⟨.refl _ _, ⟨ha1, ha2, ha3, ha4⟩, fun b i hi => ?_⟩
    have hi : In (place s p) n b i := by
      have e : place s2.ret a = place s p := by unfold place; rw [ha3, show s2.ret.home = s2.home from rfl, ha4]
      rwa [e] at hi
    obtain ⟨rest, e⟩ := ht b i hi
    refine ⟨rest.map (Item.release s2.frame), ?_⟩
    show (s2.stack b i).map _ = _
    rw [e, List.map_cons, release_prot]
  have e : (fun a => call (arg .mut a n >>= pure)) = fun a => call (arg .mut a n) := funext fun a => by rw [bind_pure]
  rw [e] at this
  exact this

/-- `p.par_chunks(..)`. -/
theorem chunks_sim {p : Ptr} {n : Nat} (hs : Sound s) (hr : Readable s p n) :
    Sim (call (arg .shared p n) s) (.ok () s.mem) (fun r _ s' => AfterCall s s' (G0 (place s p) n p.buf) ∧ Derived s s' p r ∧ Quiet s' r n) (fun _ => True) := by
  rw [← bind_pure (arg .shared p n)]
  refine (call_sim (k := .shared) (G := nothing) (o := .ok () s.mem) (Q := fun r _ s' => Derived s s' p r ∧ Quiet s' r n) (E := fun _ => True) (.inr rfl) hs hr fun s1 hm hs1 h => ?_).mono (fun _ _ _ h => h) fun _ _ => trivial
  rw [← hm]
  have hn : s1.next = s.next + 1 := h.next
  refine Sim.ret_left ⟨.refl _ _, ⟨Nat.le_refl _, by show s.next < s1.next; omega, rfl, h.home_new⟩, Quiet.ret fun b i hi => ?_⟩
  rw [h.place_new] at hi
  obtain ⟨rest, e, -⟩ := h.top_shared (.inl rfl) hi
  rw [e, Stack.read_new]

/-! ### The body -/

theorem _root_.Simd.Borrow.Sim.left2 {γ δ ε : Type} {x : BProg α} {f : α → BProg ε} {g : ε → BProg γ} {s : State} {o : Out δ} {Q : ε → State → Prop} {E E' : State → Prop} {Q' : γ → δ → State → Prop}
    (h : Sim ((x >>= f) s) (.ok () s.mem) (fun a _ s' => Q a s') E') (hf : ∀ a s', s'.mem = s.mem → Q a s' → Sim (g a s') o Q' E) : Sim ((x >>= fun a => f a >>= g) s) o Q' E := by
  have := Sim.left (f := g) h hf
  have e : ((x >>= f) >>= g) s = (x >>= fun a => f a >>= g) s := by
    show BProg.bind (BProg.bind _ _) _ s = BProg.bind _ _ s
    unfold BProg.bind
    cases x s <;> rfl
  rwa [e] at this

/-- After the section. -/
abbrev parBack (dp : Ptr) (l : Nat) : BProg Slice := do
  let ptr ← as_mut_ptr dp l
  let r ← slice_mut ptr l
  return ⟨r, l⟩

/-- What is known when the section starts, in `s5`, of a call in `s`. -/
structure ParReady (s s5 : State) (p q : Ptr) (n d l : Nat) (sc dc dp : Ptr) : Prop where
  mem : s5.mem = s.mem
  sound : Sound s5
  src : sc.buf < s5.next
  dst : dc.buf < s5.next
  src_at : place s5 sc = place s p
  dst_at : place s5 dc = place s q
  quiet : Quiet s5 sc n
  top : OnTop s5 .unique dc l
  back : ∀ s6, AfterCall s5 s6 (G2 (place s p) n sc.buf (place s q) l dc.buf) →
    Sim (parBack dp l s6) (.ok ⟨place s q, l⟩ s6.mem) (fun r r' s8 => AfterCall s s8.ret (G2 (place s p) n p.buf (place s q) d q.buf) ∧ RetB s8.ret r r') (fun _ => False)

theorem part_dst {P Q : Ptr} {n d l t t' u u' : Nat} {s : State} (ho : NoOverlap P n Q d) (hl : l ≤ d) (ht : s.next ≤ t') (hu : s.next ≤ u') (b i : Nat) :
    Fits s (G2 P n t Q d u b i) (G2 P n t' Q l u' b i) := by
  unfold G2
  by_cases h : In P n b i
  · rw [over_in h, over_in h]
    exact .inr (.inr (.inr (.inl ⟨t, t', rfl, rfl, ht⟩)))
  · rw [over_out h, over_out h]
    exact G1_new hl hu b i

theorem same_src {P Q : Ptr} {n l t u u' : Nat} {s : State} (hu : s.next ≤ u') (b i : Nat) : Fits s (G2 P n t Q l u b i) (G2 P n t Q l u' b i) := by
  unfold G2
  by_cases h : In P n b i
  · rw [over_in h, over_in h]
    exact .inr (.inl rfl)
  · rw [over_out h, over_out h]
    exact G1_new (Nat.le_refl _) hu b i

theorem G2_dst' {P : Ptr} {n t : Nat} {Q : Ptr} {d u u' m : Nat} {s : State} (ho : NoOverlap P n Q d) (hm : m ≤ d) (hu : s.next ≤ u') (b i : Nat) : Fits s (G2 P n t Q d u b i) (G1 Q m u' b i) := by
  by_cases h : In Q m b i
  · refine .inr (.inr (.inl ⟨u, u', ?_, over_in h, hu⟩))
    exact (over_out fun h' => noOverlap_pt ho h' (in_mono hm h)).trans (over_in (in_mono hm h))
  · exact .inl (over_out h)

/-- The body as far as the section. -/
theorem front_sim {p q : Ptr} {n d l a b : Nat} (hs : Sound s) (hr : Readable s p n) (hm : Mutable s q d) (hp : p.buf < s.next) (hq : q.buf < s.next) (ho : NoOverlap (place s p) n (place s q) d) (hl : l ≤ d)
    (ha : a ≠ 0) (hb : b ≠ 0) {oa ob : Option Nat} (ea : oa = some a) (eb : ob = some b) {job : Nat → Nat → Ptr → Ptr → Act} :
    Sim ((arg .shared p n >>= fun sp => (do
        let dp ← slice_mut q d
        let dp ← retag .mut dp d
        let dp ← call do
          let dp ← arg .mut dp d
          prog (assert (l ≤ d))
          retag .mut dp l
        let a ← prog (liftO oa)
        let sc ← call (arg .shared sp n)
        prog (assert (a ≠ 0))
        let b ← prog (liftO ob)
        let dc ← retag .mut dp l
        let dc ← call (arg .mut dc l)
        prog (assert (b ≠ 0))
        return Split.par (job a b sc dc) (parBack dp l) : BProg (Split Slice))) s.enter) (.ok () s.mem)
      (fun r _ s5 => ∃ sc dc dp, r = .par (job a b sc dc) (parBack dp l) ∧ ParReady s s5 p q n d l sc dc dp) (fun _ => False) := by
  refine Sim.left (x := arg .shared p n) (s := s.enter) (E' := fun _ => False) (retag_sim (s := s.enter) fun b i hi => ?_) ?_
  · rw [Kind.apply, Option.isSome_map]; exact hr b i hi
  rintro _ s1 m1 ⟨rfl, h1⟩
  have hs1 : Sound s1 := h1.sound (fun b i it hi => ⟨(hs b i it hi).1, fun f hf => Nat.le_succ_of_le ((hs b i it hi).2 f hf)⟩) (by decide) fun f hf => by cases hf; exact Nat.le_refl _
  have n1 : s1.next = s.next + 1 := h1.next
  have q1 : place s1 q = place s q := h1.place_old hq
  have p1 : place s1 ⟨s.next, p.off⟩ = place s p := h1.place_new
  have hr1 : Readable s1 ⟨s.next, p.off⟩ n := fun b i hi => by
    rw [p1] at hi
    obtain ⟨rest, e, -⟩ := h1.top_shared (.inl rfl) hi
    rw [e]; exact (congrArg Option.isSome Stack.read_new).trans rfl
  have hm1 : Mutable s1 q d := fun b i hi => by
    rw [q1] at hi
    rw [h1.outside b i fun h' => noOverlap_pt ho h' hi]; exact hm b i hi
  -- `into_uninit_slice`
  refine Sim.left (slice_mut_sim hm1) ?_
  rintro r2 s2 m2 ⟨h2, d2, t2⟩
  rw [q1] at h2
  have hs2 := h2.sound hs1
  have q2 : place s2 r2 = place s q := d2.place.trans q1
  -- `&mut dst[..l]`
  refine Sim.left2 (index_mut_sim hs2 (OnTop.mutable t2 (.inl rfl)) hl) ?_
  rintro dp s3 m3 ⟨h3, d3, t3⟩
  rw [q2] at h3
  have hs3 := h3.sound hs2
  have q3 : place s3 dp = place s q := d3.place.trans q2
  have h13 : AfterCall s1 s3 (G1 (place s q) d q.buf) := h2.push hs1 h3 (G1_new (Nat.le_refl _) d2.lo)
  subst ea
  refine Sim.left (Q := fun b s' => b = a ∧ s' = s3) lift_left ?_
  rintro a s3 _ ⟨rfl, rfl⟩
  -- `src.par_chunks(..)`
  have hr3 : Readable s3 ⟨s.next, p.off⟩ n := h13.readable (by show s.next < s1.next; omega) (fun b i hi => .inl (over_out fun h' => noOverlap_pt ho (p1 ▸ hi) h')) hr1
  have p3 : place s3 ⟨s.next, p.off⟩ = place s p := (AfterCall.place h13 (by show s.next < s1.next; omega)).trans p1
  refine Sim.left (chunks_sim hs3 hr3) ?_
  rintro sc s4 m4 ⟨h4, d4, t4⟩
  replace h4 : AfterCall s3 s4 (G0 (place s3 ⟨s.next, p.off⟩) n s.next) := h4
  rw [p3] at h4
  have hs4 := h4.sound hs3
  have p4 : place s4 sc = place s p := d4.place.trans p3
  have q4 : place s4 dp = place s q := (AfterCall.place h4 d3.hi).trans q3
  have t4' : OnTop s4 .unique dp l := fun b i hi => by
    rw [q4] at hi
    rw [h4.same (over_out fun h' => noOverlap_pt ho h' (in_mono hl hi))]
    exact t3 b i (q3 ▸ hi)
  have h14 : AfterCall s1 s4 (G2 (place s p) n s.next (place s q) d q.buf) :=
    (h13.weaken (G2_dst ho (Nat.le_refl _))).push hs1 h4 (none_or G2_src)
  refine Sim.left (Q := fun _ s' => s' = s4) (assert_left (decide_eq_true ha)) ?_
  rintro _ s4 _ rfl
  subst eb
  refine Sim.left (Q := fun b' s' => b' = b ∧ s' = s4) lift_left ?_
  rintro b s4 _ ⟨rfl, rfl⟩
  -- `dst.par_chunks_mut(..)`
  refine Sim.left2 (chunks_mut_sim hs4 (OnTop.mutable t4' (.inl rfl))) ?_
  rintro dc s5 m5 ⟨h5, d5, t5⟩
  rw [q4] at h5
  refine Sim.left (Q := fun _ s' => s' = s5) (assert_left (decide_eq_true hb)) ?_
  rintro _ s5 _ rfl
  have m51 : s5.mem = s.mem := by rw [m5, m4, m3, m2, m1]; rfl
  rw [← m51]
  refine Sim.ret_left ⟨sc, dc, dp, rfl, m51, h5.sound hs4, Nat.lt_of_lt_of_le d4.hi h5.next, d5.hi, (AfterCall.place h5 d4.hi).trans p4, d5.place.trans q4,
    Quiet.after h5 d4.hi (fun b i hi => over_out fun h' => noOverlap_pt ho (p4 ▸ hi) (in_mono hl h')) t4, t5, fun s6 h6 => ?_⟩
  have hol : NoOverlap (place s p) n (place s q) l := ho.mono (Nat.le_refl _) hl
  have h46 : AfterCall s4 s6 (G2 (place s p) n sc.buf (place s q) l dp.buf) := (h5.weaken (G2_dst hol (Nat.le_refl _))).push hs4 h6 (same_src d5.lo)
  have dp4 : dp.buf < s4.next := Nat.lt_of_lt_of_le d3.hi h4.next
  have m6 : Mutable s6 dp l := G2_mutable (P := place s p) (n := n) (t := sc.buf) (q4 ▸ hol) (q4 ▸ h46) dp4 (OnTop.mutable t4' (.inl rfl))
  have hs6 := h46.sound hs4
  have q6 : place s6 dp = place s q := (AfterCall.place h46 dp4).trans q4
  refine Sim.left (as_mut_ptr_sim hs6 m6) ?_
  rintro ptr s7 m7 ⟨h7, d7, t7⟩
  rw [q6] at h7
  have h47 := h46.push hs4 h7 (none_or (G2_dst hol (Nat.le_refl _)))
  rw [← m7]
  refine (copy_end (k := 1) (Nat.one_mul l).symm (OnTop.mutable t7 (.inr rfl)) (d7.place.trans q6)).mono ?_ fun _ h => h
  rintro r r' s8 ⟨h8, d8, t8⟩
  refine ⟨?_, Ret.ret t8⟩
  have h48 := h47.push hs4 h8 (G2_dst' hol (Nat.le_refl _) (Nat.le_trans (Nat.le_trans h46.next (Nat.le_refl _)) d7.lo))
  have h18 := h14.push hs1 h48 (part_dst ho hl (Nat.le_trans h13.next d4.lo) (Nat.le_trans h2.next d3.lo))
  exact call_after (.inr rfl) hs h1 h18

end Simd.Borrow
