import Verif.Spec.BorrowExt
import Verif.Lemmas.BorrowBoxFns
import Verif.Lemmas.BorrowVec
import Verif.Props.AnywhereExt
import Verif.Props.Borrows
/-
The functions of uuid-simd's `ext.rs` do with borrow stacks what they do without them.
-/
namespace Simd.Borrow
open Spec

variable {α β γ δ : Type} {s s1 s2 s3 s4 : State} {p q r P Q : Ptr} {n m d t N : Nat} {G : Nat → Nat → Loan}

/-! ### Shared references -/

/-- A function that makes a shared reference from one. -/
def RStep (n : Nat) (f : Ptr → BProg Ptr) : Prop :=
  ∀ s p, Sound s → Readable s p n → Sim (f p s) (.ok () s.mem) (fun r _ s' => AfterCall s s' (G0 (place s p) n p.buf) ∧ Derived s s' p r ∧ Quiet s' r n) (fun _ => True)

theorem rstep_shared : RStep n (fun p => retag .shared p n) := fun s p _ hr => by
  refine (retag_sim (E := fun _ => False) fun b i hi => ?_).mono ?_ (fun _ h => h.elim)
  · rw [Kind.apply, Option.isSome_map]; exact hr b i hi
  · rintro r _ s1 ⟨rfl, h⟩
    refine ⟨h.after_shared (.inl rfl), h.derived, fun b i hi => ?_⟩
    rw [h.place_new] at hi
    obtain ⟨rest, e, -⟩ := h.top_shared (.inl rfl) hi
    rw [e, Stack.read_new]

theorem RStep.call {f : Ptr → BProg Ptr} (hf : RStep n f) : RStep n (fun p => Borrow.call (arg .shared p n >>= f)) := fun s p hs hr => by
  refine (call_sim (k := .shared) (G := nothing) (o := .ok () s.mem) (Q := fun r _ s' => Derived s s' p r ∧ Quiet s' r n) (E := fun _ => True) (.inr rfl) hs hr fun s1 hm hs1 h => ?_).mono (fun _ _ _ h => h) fun _ _ => trivial
  simp only [reduceCtorEq, ↓reduceIte]
  rw [← hm]
  have hn : s1.next = s.next + 1 := h.next
  have key := hf s1 ⟨s.next, p.off⟩ hs1 (fun b i hi => by
    rw [h.place_new] at hi
    obtain ⟨rest, e, -⟩ := h.top_shared (.inl rfl) hi
    rw [e, Stack.read_new]; rfl)
  rw [h.place_new] at key
  cases hx : f ⟨s.next, p.off⟩ s1 with
  | ok r s2 =>
    rw [hx] at key
    obtain ⟨e, h3, h4, h5⟩ := key
    exact ⟨e, h3, ⟨by have := h4.lo; omega, h4.hi, h4.off, h4.home.trans h.home_new⟩, h5.ret⟩
  | err s2 => rw [hx] at key; exact key.elim
  | panic | ub => rw [hx] at key; exact key.elim

theorem rstep_as_bytes : RStep n (fun p => Uuid.as_bytes p n) := rstep_shared.call

/-- Lending the same bytes with a newer tag. -/
theorem G0_newer (hr : s.next ≤ d) (b i : Nat) : Fits s (G0 P n t b i) (G0 P n d b i) := by
  by_cases h : In P n b i
  · exact .inr (.inr (.inr (.inl ⟨t, d, over_in h, over_in h, hr⟩)))
  · exact .inl (over_out h)

theorem load_shared_sim (hr : Readable s p n) (hu : (loadBytes (place s p) n).run s.mem ≠ .ub) {E : State → Prop} :
    Sim (prog (loadBytes p n) s) ((loadBytes (place s p) n).run s.mem)
      (fun bs bs' s' => AfterCall s s' (G0 (place s p) n p.buf) ∧ bs = bs' ∧ s'.mem = s.mem ∧ s'.next = s.next ∧ s'.home = s.home ∧ (Mutable s p n → Mutable s' p n)) E := by
  refine (load_sim hr hu).mono ?_ fun _ h => h
  rintro bs bs' s' ⟨e, -, S, rfl, h2, h3⟩
  refine ⟨⟨Nat.le_refl _, rfl, fun _ _ => rfl, fun b i => ?_⟩, e, rfl, rfl, rfl, fun hm b i hi => Stack.write_of_read (hm b i hi) (h2 b i hi)⟩
  by_cases hi : In (place s p) n b i
  · rw [show G0 (place s p) n p.buf b i = .shared p.buf from over_in hi]
    exact .inr ⟨_, [], h2 b i hi, rfl, nofun⟩
  · exact .inl (h3 b i hi)

theorem read_str_sim (hs : Sound s) (hr : Readable s p n) (hu : (loadBytes (place s p) n).run s.mem ≠ .ub) :
    Sim (Uuid.read_str p n s) ((loadBytes (place s p) n).run s.mem) (fun bs bs' s' => AfterCall s s' (G0 (place s p) n p.buf) ∧ bs = bs' ∧ s'.mem = s.mem) (fun _ => True) := by
  unfold Uuid.read_str
  refine Sim.left (rstep_shared s p hs hr) ?_
  rintro t1 s1 hm1 ⟨h1, d1, r1⟩
  refine Sim.left (rstep_as_bytes s1 t1 (h1.sound hs) r1.readable) ?_
  rintro t2 s2 hm2 ⟨h2, d2, r2⟩
  rw [d1.place] at h2
  have h12 := h1.push hs h2 (G0_newer d1.lo)
  have hp12 : place s2 t2 = place s p := d2.place.trans d1.place
  have hm : s2.mem = s.mem := hm2.trans hm1
  rw [← hm, ← hp12] at hu ⊢
  refine (call_sim (k := .shared) (G := nothing) (Q := fun bs bs' s' => bs = bs' ∧ s'.mem = s2.mem) (E := fun _ => True) (.inr rfl) (h12.sound hs) r2.readable fun s3 hm3 hs3 h => ?_).mono ?_ fun _ _ => trivial
  · have hr3 : Readable s3 ⟨s2.next, t2.off⟩ n := fun b i hi => by
      rw [h.place_new] at hi
      obtain ⟨rest, e, -⟩ := h.top_shared (.inl rfl) hi
      rw [e, Stack.read_new]; rfl
    have hpl : place s3 ⟨s2.next, t2.off⟩ = place s2 t2 := h.place_new
    have := load_shared_sim (E := fun _ => False) hr3 (by rw [hpl, hm3]; exact hu)
    rw [hpl, hm3] at this
    refine this.mono ?_ fun _ h => h.elim
    rintro bs bs' s4 ⟨h4, e, em, -⟩
    exact ⟨h4, e, em⟩
  · rintro bs bs' s4 ⟨h4, e, em⟩
    have h4' : AfterCall s2 s4 (G0 (place s p) n t2.buf) := hp12 ▸ h4
    rw [hp12]
    exact ⟨h12.push hs h4' (G0_newer (Nat.le_trans h1.next d2.lo)), e, em⟩

/-! ### The local variable -/

/-- Lending the destination with a newer tag. -/
theorem G2_newdst {u v : Nat} (hv : s.next ≤ v) (b i : Nat) : Fits s (G2 P n t Q d u b i) (G2 P n t Q d v b i) := by
  by_cases h : In P n b i
  · exact .inr (.inl ((over_in h).trans (over_in h).symm))
  · rw [show G2 P n t Q d u b i = over Q d (.excl u) nothing b i from over_out h, show G2 P n t Q d v b i = over Q d (.excl v) nothing b i from over_out h]
    exact G1_new (Nat.le_refl _) hv b i

/-- Lending on the source, and a new allocation. -/
theorem fits_local (hP : P.buf < N) (hQ : N ≤ Q.buf) {u v : Nat} (hv : v = t ∨ s.next ≤ v) (hu : s.next ≤ u) (b i : Nat) : Fits s (GH P n t N b i) (G2 P n v Q d u b i) := by
  by_cases h : In P n b i
  · rw [show GH P n t N b i = .shared t from over_in h, show G2 P n v Q d u b i = .shared v from over_in h]
    rcases hv with rfl | hv
    · exact .inr (.inl rfl)
    · exact .inr (.inr (.inr (.inl ⟨_, _, rfl, rfl, hv⟩)))
  · rw [show G2 P n v Q d u b i = over Q d (.excl u) nothing b i from over_out h]
    exact fits_own (GH_own hP) hQ hu b i

/-- New memory is read through a new tag. -/
theorem own_read (hs : Sound s) (h1 : AfterCall s s1 G) (h2 : AfterCall s1 s2 (G0 Q m t)) (ht : s.next ≤ t) (hG : ∀ b i, In Q m b i → G b i = .own) : AfterCall s s2 G := by
  refine ⟨Nat.le_trans h1.next h2.next, h2.frame.trans h1.frame, fun t ht => (h2.home t (Nat.lt_of_lt_of_le ht h1.next)).trans (h1.home t ht), fun b i => ?_⟩
  rcases h2.stack b i with e | e
  · rw [e]; exact StackAfter.mono (h1.stack b i) h2.next
  · by_cases hi : In Q m b i
    · rw [show G0 Q m t b i = .shared t from over_in hi] at e
      obtain ⟨r, new, e1, e2, e3⟩ := e
      refine .inr ?_
      rw [hG b i hi]
      obtain ⟨it0, i1, i2⟩ := Stack.read_has e1
      have hnew := new_items hs h1 (hG b i hi) i1 (by rw [i2]; exact ht)
      intro it hit
      rw [e2] at hit
      rcases List.mem_append.1 hit with hit | hit
      · exact NewItem.mono (e3 it hit).1 h1.next (Nat.le_refl _)
      · obtain ⟨it', j1, j2, j3⟩ := Stack.read_mem e1 it hit
        obtain ⟨k1, k2, k3⟩ := hnew it' j1
        exact ⟨by rw [← j2]; exact k1, by rw [← j2]; exact Nat.lt_of_lt_of_le k2 h2.next, by rw [← j3]; exact k3⟩
    · rw [show G0 Q m t b i = .none from over_out hi] at e; exact e.elim

theorem clear_back (s s1 s2 : State) (a b : α) (hm : s1.mem = s.mem) (_ : s.next ≤ s1.next) (h : a = b ∧ Clear s1 s2) : a = b ∧ Clear s s2.ret :=
  ⟨h.1, fun b h1 h2 => Freed.ret (h.2 b (by rw [hm]; exact h1) h2)⟩

/-- What the version with borrow stacks of a function that fills a destination of `N` bytes does. -/
def Fills (ft : Ptr → Ptr → BProg Slice) (fp : Ptr → Ptr → Prog Slice) (xs : List Byte) (N : Nat) : Prop :=
  ∀ s p q, Sound s → p.buf < s.next → q.buf < s.next → Readable s p xs.length → Mutable s q N → Reads s.mem (place s p) xs → Writable s.mem (place s q) N → NoOverlap (place s p) xs.length (place s q) N →
    Sim (ft p q s) ((fp (place s p) (place s q)).run s.mem)
      (fun r r' s' => AfterCall s s' (G2 (place s p) xs.length p.buf (place s q) N q.buf) ∧ FreshSlice 1 s' r r') (fun s' => AfterCall s s' (G2 (place s p) xs.length p.buf (place s q) N q.buf))

/-- A `unique` item on top where there was a raw pointer is new. -/
theorem top_new {o a : Ptr} (h : AfterCall s s1 G) (ho : OnTop s .sharedRW o N) {b i : Nat} (hi : In (place s o) N b i) (hG : G b i = .excl o.buf) {rest : Stack} (ha : s1.stack b i = ⟨.unique, a.buf, none⟩ :: rest) : s.next ≤ a.buf := by
  obtain ⟨rest', e⟩ := ho b i hi
  rcases h.stack b i with e1 | e1
  · rw [ha, e] at e1; cases e1
  · rw [hG] at e1
    obtain ⟨w, new, e2, e3, e4⟩ := e1
    rw [e, show Stack.write o.buf (⟨.sharedRW, o.buf, none⟩ :: rest') = _ from Stack.write_top rfl (.inr rfl)] at e2
    cases e2
    rw [ha] at e3
    cases new with
    | nil => cases e3
    | cons it new =>
      rw [List.cons_append] at e3
      injection e3 with e3 _
      have := (e4 it (.head _)).1
      rw [← e3] at this
      exact this

/-- A function is called on a new local variable. -/
theorem local_sim {ft : Ptr → Ptr → BProg Slice} {fp : Ptr → Ptr → Prog Slice} {xs : List Byte} (hf : Fills ft fp xs N) (hs : Sound s) (hP : P.buf < s.mem.nbuf)
    (hx : Reads s.mem P xs) (hA : AfterCall s s1 (GH P xs.length p.buf s.mem.nbuf)) (hm : s1.mem = s.mem.alloc N) (hN : NewOwner s s1 q N) (eP : place s1 r = P) (hr : Readable s1 r xs.length)
    (hrt : r.buf < s1.next) (ht : r.buf = p.buf ∨ s.next ≤ r.buf)
    (hshape : ∀ r m', (fp P ⟨s.mem.nbuf, 0⟩).run s1.mem = .ok r m' ∨ (fp P ⟨s.mem.nbuf, 0⟩).run s1.mem = .err m' → m'.nbuf = s1.mem.nbuf ∧ m'.size = s1.mem.size) :
    Sim ((as_mut_ptr q N >>= fun out => ft r out) s1) ((fp P ⟨s.mem.nbuf, 0⟩).run s1.mem)
      (fun a a' s' => (AfterCall s s' (GH P xs.length p.buf s.mem.nbuf) ∧ NewOwner s s' q N) ∧ AfterCall s1 s' (G2 P xs.length r.buf ⟨s.mem.nbuf, 0⟩ N q.buf) ∧ FreshSlice 1 s' a a' ∧
        (0 < N → a' = ⟨⟨s.mem.nbuf, 0⟩, N⟩ → s1.next ≤ a.ptr.buf))
      (fun s' => AfterCall s s' (GH P xs.length p.buf s.mem.nbuf) ∧ NewOwner s s' q N) := by
  have ho : NoOverlap P xs.length ⟨s.mem.nbuf, 0⟩ N := noOverlap_new hP
  have hs1 := hA.sound hs
  refine Sim.left (as_mut_ptr_sim hs1 hN.mutable) ?_
  rintro o s2 hm2 ⟨h1, h2, h3⟩
  rw [hN.place_eq] at h1
  have eo : place s2 o = ⟨s.mem.nbuf, 0⟩ := h2.place.trans hN.place_eq
  have er : place s2 r = P := (AfterCall.place h1 hrt).trans eP
  have hr2 : Readable s2 r xs.length := h1.readable hrt (fun b i hi => .inl (over_out fun h' => noOverlap_pt ho (eP ▸ hi) h')) hr
  have key := hf s2 r o (h1.sound hs1) (Nat.lt_of_lt_of_le hrt h1.next) h2.hi hr2 (OnTop.mutable h3 (.inr rfl)) (by rw [er, hm2, hm]; exact hx.alloc hP N) (by rw [eo, hm2, hm]; exact writable_alloc _ _) (by rw [er, eo]; exact ho)
  rw [er, eo] at key
  rw [← hm2] at hshape ⊢
  have h1' := h1.weaken (G2_dst (P := P) (n := xs.length) (t := r.buf) ho (Nat.le_refl N))
  have fin : ∀ s3, s3.mem.nbuf = s2.mem.nbuf → s3.mem.size = s2.mem.size → AfterCall s2 s3 (G2 P xs.length r.buf ⟨s.mem.nbuf, 0⟩ N o.buf) →
      AfterCall s1 s3 (G2 P xs.length r.buf ⟨s.mem.nbuf, 0⟩ N q.buf) ∧ AfterCall s s3 (GH P xs.length p.buf s.mem.nbuf) ∧ NewOwner s s3 q N := fun s3 e1 e2 h4 => by
    have h5 := h1'.push hs1 h4 (G2_newdst h2.lo)
    refine ⟨h5, hA.push hs h5 (fits_local hP (Nat.le_refl _) ht hN.lo), hN.step h5 (fun b i hi => ?_) (e1.trans (by rw [hm2])) (e2.trans (by rw [hm2]))⟩
    exact .inr ((over_out fun h' => noOverlap_pt ho h' hi).trans (over_in hi))
  refine key.withRun.mono (fun a a' s3 h => ?_) fun s3 h => ?_
  · obtain ⟨⟨h4, h5⟩, hx⟩ := h
    obtain ⟨e1, e2⟩ := hshape _ _ (.inl hx)
    obtain ⟨f1, f2⟩ := fin s3 e1 e2 h4
    refine ⟨f2, f1, h5, fun h0 ha => ?_⟩
    obtain ⟨g1, -, g3⟩ := h5
    have hl : a.len = N := by rw [ha] at g1; exact (congrArg Slice.len g1).symm
    have hpl : place s3 a.ptr = ⟨s.mem.nbuf, 0⟩ := by rw [ha] at g1; exact (congrArg Slice.ptr g1).symm
    have hin : In ⟨s.mem.nbuf, 0⟩ N s.mem.nbuf 0 := ⟨rfl, Nat.le_refl _, by show 0 < 0 + N; omega⟩
    obtain ⟨rest, e⟩ := g3 s.mem.nbuf 0 (by rw [hpl, hl, Nat.one_mul]; exact hin)
    exact Nat.le_trans h1.next (top_new h4 h3 (by rw [eo]; exact hin) ((over_out fun h' => noOverlap_pt ho h' hin).trans (over_in hin)) e)
  · obtain ⟨h4, hx⟩ := h
    obtain ⟨e1, e2⟩ := hshape ⟨P, 0⟩ _ (.inr hx)
    exact (fin s3 e1 e2 h4).2

theorem drop_local (h : NewOwner s s1 q N) (hN : N ≠ 0) (hs : Sound s) (h' : AfterCall s s1 G) (hG : ∀ b i, s.mem.nbuf ≤ b → G b i = .own) {E : State → Prop} :
    Sim (dealloc q N s1) (.ok () s1.mem) (fun _ _ s2 => s2.mem = s1.mem ∧ AfterCall s s2 G ∧ Clear s s2) E := h.drop (if_neg hN).symm hs h' hG

/-- The pointer to the local variable is made before the function that may fail is called. -/
theorem orDrop_left {x : BProg α} {f : α → BProg β} {g : BProg Unit} {k : β → BProg γ} {Q : α → State → Prop} {E : State → Prop} (h : Sim (x s) (.ok () s.mem) (fun a _ s' => Q a s') E) :
    (x >>= fun a => orDrop (f a) g >>= k) s = (orDrop (x >>= f) g >>= k) s := by
  show BProg.bind x _ s = BProg.bind (orDrop (BProg.bind x f) g) k s
  unfold BProg.bind orDrop
  cases hx : x s <;> rw [hx] at h <;> first | exact h.elim | skip
  dsimp only
  rw [hx]
  rfl

theorem parse_uuid_sim {ft : Slice → Ptr → BProg Slice} {fp : Slice → Ptr → Prog Slice} {xs : List Byte} (hf : Fills (fun p q => ft ⟨p, xs.length⟩ q) (fun p q => fp ⟨p, xs.length⟩ q) xs 16) (hs : Sound s)
    (hr : Readable s p xs.length) (eP : place s p = P) (hPn : P.buf < s.mem.nbuf) (hx : Reads s.mem P xs)
    (hshape : ∀ r m', (fp ⟨P, xs.length⟩ ⟨s.mem.nbuf, 0⟩).run (s.mem.alloc 16) = .ok r m' ∨ (fp ⟨P, xs.length⟩ ⟨s.mem.nbuf, 0⟩).run (s.mem.alloc 16) = .err m' →
      m'.nbuf = (s.mem.alloc 16).nbuf ∧ m'.size = (s.mem.alloc 16).size)
    (hu : (Simd.Uuid.parse_uuid ⟨P, xs.length⟩ fp).run s.mem ≠ .ub) :
    Sim (Uuid.parse_uuid ⟨p, xs.length⟩ ft s) ((Simd.Uuid.parse_uuid ⟨P, xs.length⟩ fp).run s.mem)
      (fun a b s' => AfterCall s s' (GH P xs.length p.buf s.mem.nbuf) ∧ (a = b ∧ Clear s s')) (fun s' => AfterCall s s' (GH P xs.length p.buf s.mem.nbuf) ∧ Clear s s') := by
  refine box_call (F := fun s s' a b => a = b ∧ Clear s s') hs hr eP hPn (clear_back s) fun s1 p1 hm1 hs1 hr1 hp1 e1 => ?_
  rw [← hm1] at hPn hx hshape hu
  have hN := owner_alloc s1 16
  have hA := after_alloc s1 16
  have hr2 : Readable (State.allocated s1 16) p1 xs.length := hA.readable hp1 (fun b i hi => .inl (if_neg (by have := hi.1; rw [e1] at this; omega))) hr1
  have hA' : AfterCall s1 (State.allocated s1 16) (GH P xs.length p1.buf s1.mem.nbuf) := (AfterCall.refl s1 _).push hs1 hA (fits_fresh hPn)
  have e2 : place (State.allocated s1 16) p1 = P := (AfterCall.place hA hp1).trans e1
  have key := local_sim hf hs1 hPn hx hA' rfl hN e2 hr2 (Nat.lt_of_lt_of_le hp1 hA.next) (.inl rfl) hshape
  show Sim ((as_mut_ptr ⟨s1.next, 0⟩ 16 >>= fun out => orDrop (ft ⟨p1, xs.length⟩ out) (dealloc ⟨s1.next, 0⟩ 16) >>= fun _ => Borrow.prog (loadBytes ⟨s1.next, 0⟩ 16) >>= fun ans => dealloc ⟨s1.next, 0⟩ 16 >>= fun _ => pure ans)
    (State.allocated s1 16)) ((fp ⟨P, xs.length⟩ ⟨s1.mem.nbuf, 0⟩ >>= fun _ => loadBytes ⟨s1.mem.nbuf, 0⟩ 16).run (State.allocated s1 16).mem) _ _
  rw [orDrop_left (as_mut_ptr_sim (hA.sound hs1) hN.mutable)]
  refine Sim.bind (Sim.orDrop (E'' := fun _ => True) key fun s' h => ?_) ?_
  · exact (drop_local h.2 (by decide) hs1 h.1 (GH_own hPn)).mono (fun _ _ _ h => h.2) fun _ h => h
  · rintro _ _ s3 hrun ⟨⟨h1, h2⟩, -⟩
    have hu' : (loadBytes ⟨s1.mem.nbuf, 0⟩ 16).run s3.mem ≠ .ub := Prog.safe_next (f := fun _ => loadBytes ⟨s1.mem.nbuf, 0⟩ 16) hu hrun
    have hre : Readable s3 ⟨s1.next, 0⟩ 16 := fun b i hi => Stack.read_of_write (h2.mutable b i hi)
    have hl := load_shared_sim (E := fun s' => AfterCall s1 s' (GH P xs.length p1.buf s1.mem.nbuf) ∧ Clear s1 s') hre (by rw [h2.place_eq]; exact hu')
    rw [h2.place_eq] at hl
    refine Sim.after (E' := fun _ => True) hl ?_
    rintro bs bs' s4 ⟨h4, rfl, hm4, hn4, hh4, hmu⟩
    have h5 := own_read hs1 h1 h4 (Nat.le_refl _) (fun b i hi => GH_own hPn b i (by have := hi.1; show s1.mem.nbuf ≤ b; dsimp only at this; omega))
    have h6 : NewOwner s1 s4 ⟨s1.next, 0⟩ 16 := ⟨h2.lo, by rw [hn4]; exact h2.hi, h2.off, by rw [hh4]; exact h2.home, by rw [hm4]; exact h2.nbuf, by rw [hm4]; exact h2.size, hmu h2.mutable⟩
    refine Sim.left (drop_local (E := fun _ => True) h6 (by decide) hs1 h5 (GH_own hPn)) ?_
    rintro _ s5 hm5 ⟨-, h7, h8⟩
    rw [← hm5]
    exact ⟨rfl, h7, rfl, h8⟩

theorem format_uuid_sim {ft : Ptr → Ptr → AsciiCase → BProg Slice} {fp : Ptr → Ptr → AsciiCase → Prog Slice} {case : AsciiCase} {xs : List Byte} (hN0 : N ≠ 0) (hf : Fills (fun p q => ft p q case) (fun p q => fp p q case) xs N)
    (hl : xs.length = 16) (hs : Sound s) (hr : Readable s p 16) (eP : place s p = P) (hPn : P.buf < s.mem.nbuf) (hx : Reads s.mem P xs)
    (hrun : ∃ m', (fp P ⟨s.mem.nbuf, 0⟩ case).run (s.mem.alloc N) = .ok ⟨⟨s.mem.nbuf, 0⟩, N⟩ m' ∧ m'.nbuf = (s.mem.alloc N).nbuf ∧ m'.size = (s.mem.alloc N).size)
    (hu : (Simd.Uuid.format_uuid N P fp case).run s.mem ≠ .ub) :
    Sim (Uuid.format_uuid N p ft case s) ((Simd.Uuid.format_uuid N P fp case).run s.mem)
      (fun a b s' => AfterCall s s' (GH P 16 p.buf s.mem.nbuf) ∧ (a = b ∧ Clear s s')) (fun s' => AfterCall s s' (GH P 16 p.buf s.mem.nbuf) ∧ Clear s s') := by
  refine box_call (F := fun s s' a b => a = b ∧ Clear s s') hs hr eP hPn (clear_back s) fun s1 p1 hm1 hs1 hr1 hp1 e1 => ?_
  rw [← hm1] at hPn hx hrun hu
  have hN := owner_alloc s1 N
  have hA := after_alloc s1 N
  have hr2 : Readable (State.allocated s1 N) p1 16 := hA.readable hp1 (fun b i hi => .inl (if_neg (by have := hi.1; rw [e1] at this; omega))) hr1
  have hA' : AfterCall s1 (State.allocated s1 N) (GH P 16 p1.buf s1.mem.nbuf) := (AfterCall.refl s1 _).push hs1 hA (fits_fresh hPn)
  have e2 : place (State.allocated s1 N) p1 = P := (AfterCall.place hA hp1).trans e1
  obtain ⟨m', hrun, hm'1, hm'2⟩ := hrun
  show Sim ((Uuid.as_bytes p1 16 >>= fun src => as_mut_ptr ⟨s1.next, 0⟩ N >>= fun dst => ft src dst case >>= fun ans => Uuid.read_str ans.ptr ans.len >>= fun text => dealloc ⟨s1.next, 0⟩ N >>= fun _ => pure text)
    (State.allocated s1 N)) ((fp P ⟨s1.mem.nbuf, 0⟩ case >>= fun ans => loadBytes ans.ptr ans.len).run (State.allocated s1 N).mem) _ _
  refine Sim.left (rstep_as_bytes _ p1 (hA.sound hs1) hr2) ?_
  rintro src s2 hm2 ⟨h1, h2, h3⟩
  rw [e2] at h1
  have hA2 := hA'.push hs1 h1 fits_src
  have hs2 := hA2.sound hs1
  have hN2 : NewOwner s1 s2 ⟨s1.next, 0⟩ N := hN.step h1 (fun b i hi => .inl (over_out fun h' => by have := hi.1; have := h'.1; simp only at *; omega)) (by rw [hm2]) (by rw [hm2])
  have hm2' : s2.mem = s1.mem.alloc N := hm2
  have hlo : s1.next ≤ src.buf := Nat.le_trans hA.next h2.lo
  rw [← hl] at h3 hA2 ⊢
  have key := local_sim hf hs1 hPn hx hA2 hm2' hN2 (h2.place.trans e2) h3.readable h2.hi (.inr hlo) (fun r m'' h => by
    rw [hm2'] at h ⊢
    rcases h with h | h <;> rw [hrun] at h <;> cases h
    exact ⟨hm'1, hm'2⟩)
  rw [← hm2]
  rw [← BProg.assoc]
  refine Sim.bind (key.noErr fun m'' h => by rw [hm2', hrun] at h; cases h) ?_
  rintro ans ans' s3 hrun' ⟨⟨h4, h5⟩, h6, h7, h8⟩
  have hans : ans' = ⟨⟨s1.mem.nbuf, 0⟩, N⟩ := by rw [hm2', hrun] at hrun'; cases hrun'; rfl
  have h8 := h8 (Nat.pos_of_ne_zero hN0) hans
  obtain ⟨h7, -, h9⟩ := h7
  have hlen : ans.len = N := by rw [hans] at h7; exact (congrArg Slice.len h7).symm
  have hpl : place s3 ans.ptr = ⟨s1.mem.nbuf, 0⟩ := by rw [hans] at h7; exact (congrArg Slice.ptr h7).symm
  have hu' : (loadBytes ans'.ptr ans'.len).run s3.mem ≠ .ub := Prog.safe_next (f := fun ans : Slice => loadBytes ans.ptr ans.len) hu (by rw [hm2'] at hrun'; exact hrun')
  rw [hans] at hu' ⊢
  rw [hlen]
  rw [hlen, Nat.one_mul] at h9
  dsimp only at hu' ⊢
  rw [← hpl] at hu' ⊢
  refine Sim.after (E' := fun _ => True) ((read_str_sim (h4.sound hs1) (fun b i hi => Stack.read_of_write (OnTop.mutable h9 (.inl rfl) b i hi)) hu').noErr fun m'' h => ?_) ?_
  · unfold loadBytes Prog.run at h
    cases hq : s3.mem.read (place s3 ans.ptr) N <;> rw [hq] at h <;> cases h
  · rintro bs bs' s4 ⟨h10, rfl, hm4⟩
    rw [hpl] at h10
    have h10' : AfterCall s3 s4 (G1 ⟨s1.mem.nbuf, 0⟩ N ans.ptr.buf) := AfterCall.promote (fun b i hi => by
      obtain ⟨rest, e⟩ := h9 b i (by rw [hpl]; exact hi)
      exact ⟨none, rest, e⟩) h10
    have ho : NoOverlap P xs.length ⟨s1.mem.nbuf, 0⟩ N := noOverlap_new hPn
    have h11 : AfterCall s2 s4 (G2 P xs.length src.buf ⟨s1.mem.nbuf, 0⟩ N s1.next) := h6.push hs2 h10' (fits_dst ho h8)
    have h12 := h4.push hs1 h10' (fits_own (GH_own hPn) (Nat.le_refl _) (Nat.le_trans hA2.next h8))
    have h13 := hN2.step h11 (fun b i hi => .inr ((over_out fun h' => noOverlap_pt ho h' hi).trans (over_in hi))) (by rw [hm4]; exact h5.nbuf.trans hN2.nbuf.symm) (by
      rw [hm4]
      have : Out.ok (⟨⟨s1.mem.nbuf, 0⟩, N⟩ : Slice) m' = Out.ok ans' s3.mem := by rw [← hrun, ← hrun', hm2']
      injection this with _ e
      rw [← e, hm'2, hm2'])
    refine Sim.left (drop_local (E := fun _ => True) h13 hN0 hs1 h12 (GH_own hPn)) ?_
    rintro _ s5 hm5 ⟨-, h14, h15⟩
    rw [← hm5]
    exact ⟨rfl, h14, rfl, h15⟩

end Simd.Borrow
