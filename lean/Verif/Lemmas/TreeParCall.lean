import Verif.Lemmas.TreeSection
import Verif.Lemmas.TreeFns
/-
`par_encode` with borrow trees: the code before and after the parallel section.
-/
namespace Simd.Tree
open Spec Simd.Base64
open Borrow (noOverlap_pt)

variable {α : Type} {s s' : State} {P Q sc dc : Ptr} {i : Option Isa} {config : Simd.Base64.Config} {xs : List Byte}

theorem lift_left {a : α} {s : State} : Sim (prog (Simd.liftO (some a)) s) (.ok () s.mem) (fun b _ s' => b = a ∧ s' = s) (fun _ => False) := ⟨rfl, rfl, rfl⟩

theorem assert_left {c : Bool} (h : c = true) {s : State} : Sim (prog (Simd.assert c) s) (.ok () s.mem) (fun _ _ s' => s' = s) (fun _ => False) := by
  subst h; exact ⟨rfl, rfl⟩

/-- `&mut p[..l]`. -/
theorem index_mut_sim {p : Ptr} {n l : Nat} (hs : Sound s) (hr : Mutable s p n) (hl : l ≤ n) :
    Sim ((retag .mut p n >>= fun a => call (arg .mut a n >>= fun a => prog (Simd.assert (l ≤ n)) >>= fun _ => retag .mut a l)) s) (.ok () s.mem)
      (fun r _ s' => AfterCall s s' (G1 (place s p) n p.buf) ∧ Derived s s' p r ∧ Mutable s' r l) (fun _ => True) := by
  refine Sim.left (x := retag .mut p n) (E' := fun _ => False) (retag_sim hr.readable) ?_
  rintro _ s1 hm ⟨rfl, h⟩
  have h1 := h.after hs hr.1 (.inr rfl)
  have hs1 := h1.sound
  have hr1 := h.mutable hs hr
  have hn1 := h.next
  rw [← hm]
  refine (call_sim (k := .mut) (body := fun a => prog (Simd.assert (l ≤ n)) >>= fun _ => retag .mut a l) (G := nothing) (o := .ok () s1.mem)
    (Q := fun r _ s' => Derived s1 s' ⟨s.next, p.off⟩ r ∧ Mutable s' r l) (E := fun _ => True) hs1 nothing_tag hr1.readable fun s2 hm2 hs2 h2 => ?_).mono ?_ fun _ _ => trivial
  · obtain ⟨hn2, hd2, -, -⟩ := h2.enter
    have hr2 := h2.mutable (sound_enter hs1) hr1.enter
    have hp2 : place s2 ⟨s1.next, p.off⟩ = place s1 ⟨s.next, p.off⟩ := h2.place_new
    refine Sim.left (Q := fun _ s' => s' = s2) (assert_left (decide_eq_true hl)) ?_
    rintro _ s2 _ rfl
    rw [← hm2]
    refine (retag_sim (prot := false) (k := .mut) (E := fun _ => False) (hr2.mono hl).readable).mono ?_ fun _ h => h.elim
    rintro _ _ s3 ⟨rfl, h3⟩
    have ha := h3.after hs2 hr2.1 (l := .excl s1.next) (.inr rfl)
    have ha' : AfterCall s2 s3 (over (place s2 ⟨s1.next, p.off⟩) l (.excl s1.next) nothing) := ha
    rw [hp2] at ha'
    refine ⟨ha'.weaken (G1_part hl), fun s4 hb => ⟨hb.derived (hd2.trans (by omega) h3.derived), hb.mutable (h3.mutable hs2 (hr2.mono hl))⟩⟩
  · rintro r _ s3 ⟨h3, h4, h5⟩
    rw [h.place_new] at h3
    exact ⟨h1.push h3 (tag1 hr.1) (G1_new (Nat.le_refl _) h.derived.toMade), h.derived.trans (by omega) h4, h5⟩

/-- `p.par_chunks_mut(..)`. -/
theorem chunks_mut_sim {p : Ptr} {n : Nat} (hs : Sound s) (hr : Mutable s p n) :
    Sim ((retag .mut p n >>= fun a => call (arg .mut a n)) s) (.ok () s.mem)
      (fun r _ s' => AfterCall s s' (G1 (place s p) n p.buf) ∧ Derived s s' p r ∧ Mutable s' r n) (fun _ => True) := as_mut_ptr_sim hs hr

/-- `p.par_chunks(..)`. -/
theorem chunks_sim {p : Ptr} {n : Nat} (hs : Sound s) (hr : Readable s p n) :
    Sim (call (arg .shared p n) s) (.ok () s.mem) (fun r _ s' => AfterCall s s' (G0 (place s p) n p.buf) ∧ Derived s s' p r ∧ Readable s' r n) (fun _ => True) := as_ptr_sim hs hr

/-! ### The body -/

theorem Sim.left2 {γ δ ε : Type} {x : BProg α} {f : α → BProg ε} {g : ε → BProg γ} {s : State} {o : Out δ} {Q : ε → State → Prop} {E E' : State → Prop} {Q' : γ → δ → State → Prop}
    (h : Sim ((x >>= f) s) (.ok () s.mem) (fun a _ s' => Q a s') E') (hf : ∀ a s', s'.mem = s.mem → Q a s' → Sim (g a s') o Q' E) : Sim ((x >>= fun a => f a >>= g) s) o Q' E := by
  have := Sim.left (f := g) h hf
  have e : ((x >>= f) >>= g) s = (x >>= fun a => f a >>= g) s := by
    show BProg.bind (BProg.bind _ _) _ s = BProg.bind _ _ s
    unfold BProg.bind
    cases x s <;> rfl
  rwa [e] at this

/-- After the section. -/
abbrev parBack (dp : Ptr) (l : Nat) : BProg Slice := do
  let ptr ← as_mut_ptr dp l
  let r ← slice_mut ptr l
  return ⟨r, l⟩

/-- What is known when the section starts, in `s5`, of a call in `s`. -/
structure ParReady (s s5 : State) (p q : Ptr) (n d l : Nat) (sc dc dp : Ptr) : Prop where
  mem : s5.mem = s.mem
  sound : Sound s5
  src_at : place s5 sc = place s p
  dst_at : place s5 dc = place s q
  src : Readable s5 sc n
  dst : Mutable s5 dc l
  back : ∀ s6, AfterCall s5 s6 (G2 (place s p) n sc.buf (place s q) l dc.buf) →
    Sim (parBack dp l s6) (.ok ⟨place s q, l⟩ s6.mem) (fun r r' s8 => ∃ s9, s8.ret = some s9 ∧ s9.mem = s8.mem ∧ AfterCall s s9 (G2 (place s p) n p.buf (place s q) d q.buf) ∧ RetB s q.buf s9 r r') (fun _ => False)

theorem part_dst {P Q : Ptr} {n d l t t' u u' : Nat} {s s1 : State} (hl : l ≤ d) (ht : Made s s1 t t') (hu : Made s s1 u u') (b i : Nat) :
    Fits s s1 (G2 P n t Q d u b i) (G2 P n t' Q l u' b i) := by
  unfold G2
  by_cases h : In P n b i
  · rw [over_in h, over_in h]
    exact .inr (.inr (.inr (.inl ⟨t, t', .inr rfl, rfl, ht⟩)))
  · rw [over_out h, over_out h]
    exact G1_new hl hu b i

theorem same_src {P Q : Ptr} {n l t u u' : Nat} {s s1 : State} (hu : Made s s1 u u') (b i : Nat) : Fits s s1 (G2 P n t Q l u b i) (G2 P n t Q l u' b i) := by
  unfold G2
  by_cases h : In P n b i
  · rw [over_in h, over_in h]
    exact .inr (.inl rfl)
  · rw [over_out h, over_out h]
    exact G1_new (Nat.le_refl _) hu b i

theorem G2_dst' {P : Ptr} {n t : Nat} {Q : Ptr} {d u u' m : Nat} {s s1 : State} (ho : NoOverlap P n Q d) (hm : m ≤ d) (hu : Made s s1 u u') (b i : Nat) : Fits s s1 (G2 P n t Q d u b i) (G1 Q m u' b i) := by
  by_cases h : In Q m b i
  · refine .inr (.inr (.inr (.inr ⟨u, u', ?_, over_in h, hu⟩)))
    exact (over_out fun h' => noOverlap_pt ho h' (in_mono hm h)).trans (over_in (in_mono hm h))
  · exact .inl (over_out h)

/-- The body as far as the section. -/
theorem front_sim {p q : Ptr} {n d l a b : Nat} (hs : Sound s) (hr : Readable s p n) (hm : Mutable s q d) (ho : NoOverlap (place s p) n (place s q) d) (hl : l ≤ d)
    (ha : a ≠ 0) (hb : b ≠ 0) {oa ob : Option Nat} (ea : oa = some a) (eb : ob = some b) {job : Nat → Nat → Ptr → Ptr → Act} :
    Sim ((arg .shared p n >>= fun sp => (do
        let dp ← slice_mut q d
        let dp ← retag .mut dp d
        let dp ← call do
          let dp ← arg .mut dp d
          prog (assert (l ≤ d))
          retag .mut dp l
        let a ← prog (liftO oa)
        let sc ← call (arg .shared sp n)
        prog (assert (a ≠ 0))
        let b ← prog (liftO ob)
        let dc ← retag .mut dp l
        let dc ← call (arg .mut dc l)
        prog (assert (b ≠ 0))
        return Split.par (job a b sc dc) (parBack dp l) : BProg (Split Slice))) s.enter) (.ok () s.mem)
      (fun r _ s5 => ∃ sc dc dp, r = .par (job a b sc dc) (parBack dp l) ∧ ParReady s s5 p q n d l sc dc dp) (fun _ => False) := by
  have hp := hr.1
  have hq := hm.1
  refine Sim.left (x := arg .shared p n) (s := s.enter) (E' := fun _ => False) (retag_sim (s := s.enter) hr.enter) ?_
  rintro _ s1 m1 ⟨rfl, h1⟩
  replace h1 : Retagged { s with guard := [] :: s.guard } s1 true .shared p n := h1
  obtain ⟨n1, d1, -, up1⟩ := h1.enter
  have hs1 : Sound s1 := h1.sound (sound_enter hs) hp
  have q1 : place s1 q = place s q := h1.place_old hq
  have p1 : place s1 ⟨s.next, p.off⟩ = place s p := h1.place_new
  have hr1 : Readable s1 ⟨s.next, p.off⟩ n := h1.readable (sound_enter hs) hr.enter
  have hm1 : Mutable s1 q d := h1.other hs hm fun b i h h' => noOverlap_pt ho h h'
  have hq1 := hm1.1
  have hn1 : s.next < s1.next := by omega
  -- `into_uninit_slice`
  refine Sim.left (slice_mut_sim hs1 hm1) ?_
  rintro r2 s2 m2 ⟨h2, d2, t2⟩
  rw [q1] at h2
  have hs2 := h2.sound
  have q2 : place s2 r2 = place s q := d2.place.trans q1
  -- `&mut dst[..l]`
  refine Sim.left2 (index_mut_sim hs2 t2 hl) ?_
  rintro dp s3 m3 ⟨h3, d3, t3⟩
  rw [q2] at h3
  have hs3 := h3.sound
  have q3 : place s3 dp = place s q := d3.place.trans q2
  have h13 : AfterCall s1 s3 (G1 (place s q) d q.buf) := h2.push h3 (tag1 hq1) (G1_new (Nat.le_refl _) d2.toMade)
  have d13 : Derived s1 s3 q dp := d2.trans h2.next d3
  subst ea
  refine Sim.left (Q := fun b s' => b = a ∧ s' = s3) lift_left ?_
  rintro a s3 _ ⟨rfl, rfl⟩
  -- `src.par_chunks(..)`
  have hr3 : Readable s3 ⟨s.next, p.off⟩ n := h13.readable (fun b i hi => .inl (over_out fun h' => noOverlap_pt ho (p1 ▸ hi) h')) hr1
  have p3 : place s3 ⟨s.next, p.off⟩ = place s p := (AfterCall.place h13 hn1).trans p1
  refine Sim.left (chunks_sim hs3 hr3) ?_
  rintro sc s4 m4 ⟨h4, d4, t4⟩
  replace h4 : AfterCall s3 s4 (G0 (place s3 ⟨s.next, p.off⟩) n s.next) := h4
  rw [p3] at h4
  have hs4 := h4.sound
  have p4 : place s4 sc = place s p := d4.place.trans p3
  have q4 : place s4 dp = place s q := (AfterCall.place h4 d3.hi).trans q3
  have t4' : Mutable s4 dp l := h4.mutable (fun b i hi => .inl (over_out fun h' => noOverlap_pt ho h' (in_mono hl (q3 ▸ hi)))) t3
  have h14 : AfterCall s1 s4 (G2 (place s p) n s.next (place s q) d q.buf) :=
    (h13.weaken (G2_dst ho (Nat.le_refl _))).push h4 (tag2 hn1 hq1) (none_or G2_src)
  refine Sim.left (Q := fun _ s' => s' = s4) (assert_left (decide_eq_true ha)) ?_
  rintro _ s4 _ rfl
  subst eb
  refine Sim.left (Q := fun b' s' => b' = b ∧ s' = s4) lift_left ?_
  rintro b s4 _ ⟨rfl, rfl⟩
  -- `dst.par_chunks_mut(..)`
  refine Sim.left2 (chunks_mut_sim hs4 t4') ?_
  rintro dc s5 m5 ⟨h5, d5, t5⟩
  rw [q4] at h5
  refine Sim.left (Q := fun _ s' => s' = s5) (assert_left (decide_eq_true hb)) ?_
  rintro _ s5 _ rfl
  have m51 : s5.mem = s.mem := by rw [m5, m4, m3, m2, m1]; rfl
  rw [← m51]
  refine Sim.ret_left ⟨sc, dc, dp, rfl, m51, h5.sound, (AfterCall.place h5 d4.hi).trans p4, d5.place.trans q4,
    h5.readable (fun b i hi => .inl (over_out fun h' => noOverlap_pt ho (p4 ▸ hi) (in_mono hl h'))) t4, t5, fun s6 h6 => ?_⟩
  have hol : NoOverlap (place s p) n (place s q) l := ho.mono (Nat.le_refl _) hl
  have dp4 : dp.buf < s4.next := t4'.1
  have h46 : AfterCall s4 s6 (G2 (place s p) n sc.buf (place s q) l dp.buf) := (h5.weaken (G2_dst hol (Nat.le_refl _))).push h6 (tag2 d4.hi dp4) (same_src d5.toMade)
  have m6 : Mutable s6 dp l := G2_mutable (P := place s p) (n := n) (t := sc.buf) (q4 ▸ hol) (q4 ▸ h46) dp4 t4'
  have hs6 := h46.sound
  have q6 : place s6 dp = place s q := (AfterCall.place h46 dp4).trans q4
  refine Sim.left (as_mut_ptr_sim hs6 m6) ?_
  rintro ptr s7 m7 ⟨h7, d7, t7⟩
  rw [q6] at h7
  have h47 := h46.push h7 (tag2 d4.hi dp4) (none_or (G2_dst hol (Nat.le_refl _)))
  rw [← m7]
  refine (copy_end (k := 1) (Nat.one_mul l).symm h7.sound t7 (d7.place.trans q6)).mono ?_ fun _ h => h
  rintro r r' s8 ⟨h8, -, t8⟩
  have h48 := h47.push h8 (tag2 d4.hi dp4) (G2_dst' hol (Nat.le_refl _) (d7.toMade.old h46.next fun u _ => by rw [h46.up _ dp4]))
  have dpq : Made s1 s4 q.buf dp.buf := d13.toMade.after h4
  have h18 := h14.push h48 (tag2 hn1 hq1) (part_dst hl (d4.toMade.old h13.next fun u _ => by show s3.up s.next u = _; rw [h13.up _ hn1]) dpq)
  obtain ⟨s9, e1, e2, e3⟩ := call_after (k := .shared) hs hp (over_tag (excl_tag hq) nothing_tag) h1 hs1 h18
  refine ⟨s9, e1, e2, e3, (Ret.res 1).back ⟨h18.sound, e1⟩ ?_⟩
  have t6 := (Ret.res 1).new h7.next d7.toMade t8
  exact (Ret.res 1).old (by omega) (fun u _ => by rw [up1 _ hq]) ((Ret.res 1).new (Nat.le_trans h14.next h46.next) (dpq.after h46) t6)

end Simd.Tree
