import Verif.Spec.TreeExt
import Verif.Lemmas.TreeVec
import Verif.Props.AnywhereExt
import Verif.Props.TreeBorrows
/-
The functions of uuid-simd's `ext.rs` do with borrow trees what they do without them.
-/
namespace Simd.Tree
open Spec

variable {α β γ δ : Type} {s s1 s2 s3 s4 : State} {p q r P Q : Ptr} {n m d t N : Nat} {G : Nat → Nat → Loan}

/-! ### Shared references -/

/-- A function that makes a shared reference from one. -/
def RStep (n : Nat) (f : Ptr → BProg Ptr) : Prop :=
  ∀ s p, Sound s → Readable s p n → Sim (f p s) (.ok () s.mem) (fun r _ s' => AfterCall s s' (G0 (place s p) n p.buf) ∧ Derived s s' p r ∧ Readable s' r n) (fun _ => True)

theorem rstep_shared : RStep n (fun p => retag .shared p n) := fun s p hs hr => by
  refine (retag_sim (prot := false) (k := .shared) (E := fun _ => False) hr).mono ?_ (fun _ h => h.elim)
  rintro r _ s1 ⟨rfl, h⟩
  exact ⟨h.after hs hr.1 (.inl rfl), h.derived, h.readable hs hr⟩

theorem RStep.call {f : Ptr → BProg Ptr} (hf : RStep n f) : RStep n (fun p => Tree.call (arg .shared p n >>= f)) := fun s p hs hr => by
  refine (call_sim (k := .shared) (G := nothing) (o := .ok () s.mem) (Q := fun r _ s' => Derived s s' p r ∧ Readable s' r n) (E := fun _ => True) hs nothing_tag hr fun s1 hm hs1 h => ?_).mono (fun _ _ _ h => h) fun _ _ => trivial
  rw [← hm]
  obtain ⟨hn, hd, hg, -⟩ := h.enter
  have hr1 := h.readable (sound_enter hs) hr.enter
  have key := hf s1 _ hs1 hr1
  cases hx : f ⟨s.next, p.off⟩ s1 with
  | ok r s2 =>
    rw [hx] at key
    obtain ⟨e, h3, h4, h5⟩ := key
    have hpl : place s1 ⟨s.next, p.off⟩ = place s p := h.place_new
    rw [hpl] at h3
    refine ⟨e, h3, fun s3 hb => ⟨hb.derived (hd.trans (Nat.le_of_lt (by show s.next < s1.next; omega)) h4), hb.readable (fun t ht => ?_) h5⟩⟩
    rw [h3.guard, hg, List.mem_singleton] at ht
    subst ht
    rw [h4.line _ (by omega)]
    show s1.up s.next s.next = true
    exact hs1.self _ (by omega)
  | err s2 =>
    rw [hx] at key
    exact key.elim
  | panic | ub => rw [hx] at key; exact key.elim

theorem rstep_as_bytes : RStep n (fun p => Uuid.as_bytes p n) := rstep_shared.call

/-- Lending the same bytes with a newer tag. -/
theorem G0_newer (hr : Made s s1 t d) (b i : Nat) : Fits s s1 (G0 P n t b i) (G0 P n d b i) := by
  by_cases h : In P n b i
  · exact .inr (.inr (.inr (.inl ⟨t, d, .inr (over_in h), over_in h, hr⟩)))
  · exact .inl (over_out h)

theorem load_shared_sim (hs : Sound s) (hr : Readable s p n) (hu : (loadBytes (place s p) n).run s.mem ≠ .ub) {E : State → Prop} :
    Sim (prog (loadBytes p n) s) ((loadBytes (place s p) n).run s.mem) (fun bs bs' s' => AfterCall s s' (G0 (place s p) n p.buf) ∧ bs = bs' ∧ s'.mem = s.mem) E := by
  obtain ⟨S, h1, h2, h3⟩ := touch_ok hr.2
  have e : (loadBytes (place s p) n).run s.mem = match s.mem.read (place s p) n with | some bs => .ok bs s.mem | none => .ub := by
    unfold loadBytes Prog.run
    cases s.mem.read (place s p) n <;> rfl
  have e' : prog (loadBytes p n) s = match s.touch false p n, s.mem.read (place s p) n with | some st, some bs => .ok bs { s with cell := st } | _, _ => .ub := by
    unfold loadBytes
    rw [prog]
    show (match s.touch false p n, s.mem.read (place s p) n with | some st, some bs => _ | _, _ => _) = _
    cases s.touch false p n <;> cases s.mem.read (place s p) n <;> rfl
  rw [e] at hu
  rw [e, e', h1]
  cases hm : s.mem.read (place s p) n with
  | none => rw [hm] at hu; exact absurd rfl hu
  | some bs => exact ⟨rfl, access_after hs h2 h3 (.inr ⟨rfl, rfl⟩) rfl rfl, rfl, rfl⟩

theorem read_str_sim (hs : Sound s) (hr : Readable s p n) (hu : (loadBytes (place s p) n).run s.mem ≠ .ub) :
    Sim (Uuid.read_str p n s) ((loadBytes (place s p) n).run s.mem) (fun bs bs' s' => AfterCall s s' (G0 (place s p) n p.buf) ∧ bs = bs' ∧ s'.mem = s.mem) (fun _ => True) := by
  unfold Uuid.read_str
  refine Sim.left (rstep_shared s p hs hr) ?_
  rintro t1 s1 hm1 ⟨h1, d1, r1⟩
  refine Sim.left (rstep_as_bytes s1 t1 h1.sound r1) ?_
  rintro t2 s2 hm2 ⟨h2, d2, r2⟩
  rw [d1.place] at h2
  have h12 := h1.push h2 (tag0 hr.1) (G0_newer d1.toMade)
  have d12 := d1.trans h1.next d2
  have hm : s2.mem = s.mem := hm2.trans hm1
  rw [← hm, ← d12.place] at hu ⊢
  refine (call_sim (k := .shared) (G := nothing) (Q := fun bs bs' s' => bs = bs' ∧ s'.mem = s2.mem) (E := fun _ => True) h2.sound nothing_tag r2 fun s3 hm3 hs3 h => ?_).mono ?_ fun _ _ => trivial
  · have hr3 := h.readable (sound_enter h2.sound) r2.enter
    have hpl : place s3 ⟨s2.next, t2.off⟩ = place s2 t2 := h.place_new
    have := load_shared_sim (E := fun _ => False) hs3 hr3 (by rw [hpl, hm3]; exact hu)
    rw [hpl, hm3] at this
    refine this.mono ?_ fun _ h => h.elim
    rintro bs bs' s4 ⟨h4, e, em⟩
    exact ⟨h4, fun s5 hb => ⟨e, by rw [hb.facts.2.1, em]⟩⟩
  · rintro bs bs' s4 ⟨h4, e, em⟩
    have h4' : AfterCall s2 s4 (G0 (place s p) n t2.buf) := d12.place ▸ h4
    rw [d12.place]
    exact ⟨h12.push h4' (tag0 hr.1) (G0_newer d12.toMade), e, em⟩

/-! ### The local variable -/

/-- Lending the destination with a newer tag. -/
theorem G2_newdst {u v : Nat} (hv : Made s s1 u v) (b i : Nat) : Fits s s1 (G2 P n t Q d u b i) (G2 P n t Q d v b i) := by
  by_cases h : In P n b i
  · exact .inr (.inl ((over_in h).trans (over_in h).symm))
  · rw [show G2 P n t Q d u b i = over Q d (.excl u) nothing b i from over_out h, show G2 P n t Q d v b i = over Q d (.excl v) nothing b i from over_out h]
    exact G1_new (Nat.le_refl _) hv b i

theorem clear_back (s s1 s2 s3 : State) (a b : α) (hm : s1.mem = s.mem) (_ : s.next ≤ s1.next) (hb : Back s2 s3) (h : a = b ∧ Clear s1 s2) : a = b ∧ Clear s s3 :=
  ⟨h.1, fun b h1 h2 => hb.freed (h.2 b (by rw [hm]; exact h1) (by rw [hb.facts.2.1] at h2; exact h2))⟩

/-- What the tree version of a function that fills a destination of `N` bytes does. -/
def Fills (ft : Ptr → Ptr → BProg Slice) (fp : Ptr → Ptr → Prog Slice) (xs : List Byte) (N : Nat) : Prop :=
  ∀ s p q, Sound s → Readable s p xs.length → Mutable s q N → Reads s.mem (place s p) xs → Writable s.mem (place s q) N → NoOverlap (place s p) xs.length (place s q) N →
    Sim (ft p q s) ((fp (place s p) (place s q)).run s.mem)
      (fun r r' s' => AfterCall s s' (G2 (place s p) xs.length p.buf (place s q) N q.buf) ∧ FreshSlice 1 s s' q.buf r r') (fun s' => AfterCall s s' (G2 (place s p) xs.length p.buf (place s q) N q.buf))

theorem reads_alloc {μ : Mem} {xs : List Byte} (hp : P.buf < μ.nbuf) (hr : Reads μ P xs) (N : Nat) : Reads (μ.alloc N) P xs := by
  have hk := kept_alloc μ N
  exact ⟨by rw [(hk.2 _ hp).1]; exact hr.1, fun i h => by rw [(hk.2 _ hp).2]; exact hr.2 i h⟩

theorem writable_alloc (μ : Mem) (N : Nat) : Writable (μ.alloc N) ⟨μ.nbuf, 0⟩ N := by
  have hsz : (μ.alloc N).size μ.nbuf = N := by simp [Mem.alloc]
  unfold Writable; simp only [hsz]; omega

/-- A function is called on a new local variable. -/
theorem local_sim {ft : Ptr → Ptr → BProg Slice} {fp : Ptr → Ptr → Prog Slice} {xs : List Byte} (hf : Fills ft fp xs N) (hs : Sound s) (hp : p.buf < s.next) (hP : P.buf < s.mem.nbuf)
    (hx : Reads s.mem P xs) (hA : AfterCall s s1 (G0 P xs.length p.buf)) (hm : s1.mem = s.mem.alloc N) (hN : NewOwner s s1 q N) (eP : place s1 r = P) (hr : Readable s1 r xs.length)
    (ht : r.buf = p.buf ∨ Made s s1 p.buf r.buf)
    (hshape : ∀ r m', (fp P ⟨s.mem.nbuf, 0⟩).run s1.mem = .ok r m' ∨ (fp P ⟨s.mem.nbuf, 0⟩).run s1.mem = .err m' → m'.nbuf = s1.mem.nbuf ∧ m'.size = s1.mem.size) :
    Sim ((as_mut_ptr q N >>= fun out => ft r out) s1) ((fp P ⟨s.mem.nbuf, 0⟩).run s1.mem)
      (fun a a' s' => (AfterCall s s' (G0 P xs.length p.buf) ∧ NewOwner s s' q N) ∧ AfterCall s1 s' (G2 P xs.length r.buf ⟨s.mem.nbuf, 0⟩ N q.buf) ∧ FreshSlice 1 s1 s' q.buf a a')
      (fun s' => AfterCall s s' (G0 P xs.length p.buf) ∧ NewOwner s s' q N) := by
  have ho : NoOverlap P xs.length ⟨s.mem.nbuf, 0⟩ N := Borrow.noOverlap_new hP
  have hrt : r.buf < s1.next := hr.1
  refine Sim.left (as_mut_ptr_sim hA.sound hN.mutable) ?_
  rintro o s2 hm2 ⟨h1, h2, h3⟩
  rw [hN.place_eq] at h1
  have eo : place s2 o = ⟨s.mem.nbuf, 0⟩ := h2.place.trans hN.place_eq
  have er : place s2 r = P := (AfterCall.place h1 hrt).trans eP
  have hr2 : Readable s2 r xs.length := h1.readable (fun b i hi => .inl (over_out fun h' => Borrow.noOverlap_pt ho (eP ▸ hi) h')) hr
  have key := hf s2 r o h1.sound hr2 h3 (by rw [er, hm2, hm]; exact reads_alloc hP hx N) (by rw [eo, hm2, hm]; exact writable_alloc _ _) (by rw [er, eo]; exact ho)
  rw [er, eo] at key
  rw [← hm2] at hshape ⊢
  have h1' := h1.weaken (G2_dst (P := P) (n := xs.length) (t := r.buf) ho (Nat.le_refl N))
  have fin : ∀ s3, s3.mem.nbuf = s2.mem.nbuf → s3.mem.size = s2.mem.size → AfterCall s2 s3 (G2 P xs.length r.buf ⟨s.mem.nbuf, 0⟩ N o.buf) →
      AfterCall s1 s3 (G2 P xs.length r.buf ⟨s.mem.nbuf, 0⟩ N q.buf) ∧ AfterCall s s3 (G0 P xs.length p.buf) ∧ NewOwner s s3 q N := fun s3 e1 e2 h4 => by
    have h5 := h1'.push h4 (tag2 hrt hN.mutable.1) (G2_newdst h2.toMade)
    refine ⟨h5, hA.pushN h5 (tag0 hp) (fun b i u hu => ?_), hN.step h5 (fun b i hi => ?_) (e1.trans (by rw [hm2])) (e2.trans (by rw [hm2]))⟩
    · by_cases h : In P xs.length b i
      · rw [show G0 P xs.length p.buf b i = .shared p.buf from over_in h, show G2 P xs.length r.buf ⟨s.mem.nbuf, 0⟩ N q.buf b i = .shared r.buf from over_in h]
        rcases ht with ht | ht
        · rw [ht]; exact .inr (.inl rfl)
        · exact .inr (.inr (.inr (.inl ⟨_, _, .inr rfl, rfl, ht⟩)))
      · rw [show G2 P xs.length r.buf ⟨s.mem.nbuf, 0⟩ N q.buf b i = over ⟨s.mem.nbuf, 0⟩ N (.excl q.buf) nothing b i from over_out h]
        exact fits_new hs (Nat.le_refl _) b i u hu
    · exact .inr ((over_out fun h' => Borrow.noOverlap_pt ho h' hi).trans (over_in hi))
  refine key.withRun.mono (fun a a' s3 h => ?_) fun s3 h => ?_
  · obtain ⟨⟨h4, h5⟩, hx⟩ := h
    obtain ⟨e1, e2⟩ := hshape _ _ (.inl hx)
    obtain ⟨f1, f2⟩ := fin s3 e1 e2 h4
    exact ⟨f2, f1, h5.1, h2.toMade.trans h1.next h5.2.1, h5.2.2⟩
  · obtain ⟨h4, hx⟩ := h
    obtain ⟨e1, e2⟩ := hshape ⟨P, 0⟩ _ (.inr hx)
    exact (fin s3 e1 e2 h4).2

theorem drop_local (h : NewOwner s s1 q N) (hN : N ≠ 0) (hs : Sound s) (h' : AfterCall s s1 G) (hG : ∀ b i t, Of t (G b i) → t < s.next) {E : State → Prop} :
    Sim (dealloc q N s1) (.ok () s1.mem) (fun _ _ s2 => s2.mem = s1.mem ∧ AfterCall s s2 G ∧ Clear s s2) E := h.drop (if_neg hN).symm hs h' hG

theorem bind_assoc {x : BProg α} {f : α → BProg β} {g : β → BProg γ} (s : State) : ((x >>= f) >>= g) s = (x >>= fun a => f a >>= g) s := by
  show BProg.bind (BProg.bind _ _) _ s = BProg.bind _ _ s
  unfold BProg.bind
  cases x s <;> rfl

/-- The pointer to the local variable is made before the function that may fail is called. -/
theorem orDrop_left {x : BProg α} {f : α → BProg β} {g : BProg Unit} {k : β → BProg γ} {Q : α → State → Prop} {E : State → Prop} (h : Sim (x s) (.ok () s.mem) (fun a _ s' => Q a s') E) :
    (x >>= fun a => orDrop (f a) g >>= k) s = (orDrop (x >>= f) g >>= k) s := by
  show BProg.bind x _ s = BProg.bind (orDrop (BProg.bind x f) g) k s
  unfold BProg.bind orDrop
  cases hx : x s <;> rw [hx] at h <;> first | exact h.elim | skip
  dsimp only
  rw [hx]
  rfl

theorem parse_uuid_sim {ft : Slice → Ptr → BProg Slice} {fp : Slice → Ptr → Prog Slice} {xs : List Byte} (hf : Fills (fun p q => ft ⟨p, xs.length⟩ q) (fun p q => fp ⟨p, xs.length⟩ q) xs 16) (hs : Sound s)
    (hr : Readable s p xs.length) (eP : place s p = P) (hx : Reads s.mem P xs)
    (hshape : ∀ r m', (fp ⟨P, xs.length⟩ ⟨s.mem.nbuf, 0⟩).run (s.mem.alloc 16) = .ok r m' ∨ (fp ⟨P, xs.length⟩ ⟨s.mem.nbuf, 0⟩).run (s.mem.alloc 16) = .err m' →
      m'.nbuf = (s.mem.alloc 16).nbuf ∧ m'.size = (s.mem.alloc 16).size)
    (hu : (Simd.Uuid.parse_uuid ⟨P, xs.length⟩ fp).run s.mem ≠ .ub) :
    Sim (Uuid.parse_uuid ⟨p, xs.length⟩ ft s) ((Simd.Uuid.parse_uuid ⟨P, xs.length⟩ fp).run s.mem)
      (fun a b s' => AfterCall s s' (G0 P xs.length p.buf) ∧ (a = b ∧ Clear s s')) (fun s' => AfterCall s s' (G0 P xs.length p.buf) ∧ Clear s s') := by
  have hPn : P.buf < s.mem.nbuf := by rw [← eP]; exact hs.alloc _ hr.1
  refine box_call (F := fun s s' a b => a = b ∧ Clear s s') hs hr eP (clear_back s) fun s1 p1 hm1 hs1 hr1 hp1 e1 => ?_
  rw [← hm1] at hPn hx hshape hu
  have hN := owner_alloc hs1 16
  have hA := (after_alloc hs1 16)
  have hr2 := nothing_readable hA hr1
  have hA' : AfterCall s1 (State.allocated s1 16) (G0 P xs.length p1.buf) := hA.weaken nothing_or
  have e2 : place (State.allocated s1 16) p1 = P := (AfterCall.place hA hp1).trans e1
  have key := local_sim hf hs1 hp1 hPn hx hA' rfl hN e2 hr2 (.inl rfl) hshape
  show Sim ((as_mut_ptr ⟨s1.next, 0⟩ 16 >>= fun out => orDrop (ft ⟨p1, xs.length⟩ out) (dealloc ⟨s1.next, 0⟩ 16) >>= fun _ => Tree.prog (loadBytes ⟨s1.next, 0⟩ 16) >>= fun ans => dealloc ⟨s1.next, 0⟩ 16 >>= fun _ => pure ans)
    (State.allocated s1 16)) ((fp ⟨P, xs.length⟩ ⟨s1.mem.nbuf, 0⟩ >>= fun _ => loadBytes ⟨s1.mem.nbuf, 0⟩ 16).run (State.allocated s1 16).mem) _ _
  rw [orDrop_left (as_mut_ptr_sim hA.sound hN.mutable)]
  refine Sim.bind (Sim.orDrop (E'' := fun _ => True) key fun s' h => ?_) ?_
  · exact (drop_local h.2 (by decide) hs1 h.1 (tag0 hp1)).mono (fun _ _ _ h => h.2) fun _ h => h
  · rintro _ _ s3 hrun ⟨⟨h1, h2⟩, -⟩
    have hu' : (loadBytes ⟨s1.mem.nbuf, 0⟩ 16).run s3.mem ≠ .ub := Prog.safe_next (f := fun _ => loadBytes ⟨s1.mem.nbuf, 0⟩ 16) hu hrun
    have hl := load_sim (E := fun s' => AfterCall s1 s' (G0 P xs.length p1.buf) ∧ Clear s1 s') h1.sound h2.mutable.readable (by rw [h2.place_eq]; exact hu')
    rw [h2.place_eq] at hl
    refine Sim.after (E' := fun _ => True) hl ?_
    rintro bs bs' s4 ⟨rfl, -, hm4, h4⟩
    have h5 := h1.pushN h4 (tag0 hp1) (fits_new hs1 (Nat.le_refl _))
    have h6 := h2.step h4 (fun b i hi => .inr (over_in hi)) (by rw [hm4]) (by rw [hm4])
    refine Sim.left (drop_local (E := fun _ => True) h6 (by decide) hs1 h5 (tag0 hp1)) ?_
    rintro _ s5 hm5 ⟨-, h7, h8⟩
    rw [← hm5]
    exact ⟨rfl, h7, rfl, h8⟩

theorem format_uuid_sim {ft : Ptr → Ptr → AsciiCase → BProg Slice} {fp : Ptr → Ptr → AsciiCase → Prog Slice} {case : AsciiCase} {xs : List Byte} (hN0 : N ≠ 0) (hf : Fills (fun p q => ft p q case) (fun p q => fp p q case) xs N)
    (hl : xs.length = 16) (hs : Sound s) (hr : Readable s p 16) (eP : place s p = P) (hx : Reads s.mem P xs)
    (hrun : ∃ m', (fp P ⟨s.mem.nbuf, 0⟩ case).run (s.mem.alloc N) = .ok ⟨⟨s.mem.nbuf, 0⟩, N⟩ m' ∧ m'.nbuf = (s.mem.alloc N).nbuf ∧ m'.size = (s.mem.alloc N).size)
    (hu : (Simd.Uuid.format_uuid N P fp case).run s.mem ≠ .ub) :
    Sim (Uuid.format_uuid N p ft case s) ((Simd.Uuid.format_uuid N P fp case).run s.mem)
      (fun a b s' => AfterCall s s' (G0 P 16 p.buf) ∧ (a = b ∧ Clear s s')) (fun s' => AfterCall s s' (G0 P 16 p.buf) ∧ Clear s s') := by
  have hPn : P.buf < s.mem.nbuf := by rw [← eP]; exact hs.alloc _ hr.1
  refine box_call (F := fun s s' a b => a = b ∧ Clear s s') hs hr eP (clear_back s) fun s1 p1 hm1 hs1 hr1 hp1 e1 => ?_
  rw [← hm1] at hPn hx hrun hu
  have hN := owner_alloc hs1 N
  have hA := (after_alloc hs1 N)
  have hr2 := nothing_readable hA hr1
  have hA' : AfterCall s1 (State.allocated s1 N) (G0 P 16 p1.buf) := hA.weaken nothing_or
  have e2 : place (State.allocated s1 N) p1 = P := (AfterCall.place hA hp1).trans e1
  obtain ⟨m', hrun, hm'1, hm'2⟩ := hrun
  show Sim ((Uuid.as_bytes p1 16 >>= fun src => as_mut_ptr ⟨s1.next, 0⟩ N >>= fun dst => ft src dst case >>= fun ans => Uuid.read_str ans.ptr ans.len >>= fun text => dealloc ⟨s1.next, 0⟩ N >>= fun _ => pure text)
    (State.allocated s1 N)) ((fp P ⟨s1.mem.nbuf, 0⟩ case >>= fun ans => loadBytes ans.ptr ans.len).run (State.allocated s1 N).mem) _ _
  refine Sim.left (rstep_as_bytes _ p1 hA.sound hr2) ?_
  rintro src s2 hm2 ⟨h1, h2, h3⟩
  rw [e2] at h1
  have hA2 := hA'.push h1 (tag0 hp1) (fun _ _ => .inr (.inl rfl))
  have hN2 : NewOwner s1 s2 ⟨s1.next, 0⟩ N := hN.step h1 (fun b i hi => .inl (over_out fun h' => by have := hi.1; have := h'.1; simp only at *; omega)) (by rw [hm2]) (by rw [hm2])
  have hm2' : s2.mem = s1.mem.alloc N := hm2
  have hmade : Made s1 s2 p1.buf src.buf := h2.toMade.old hA.next fun u _ => by rw [hA.up _ hp1]
  rw [← hl] at h3 hA2 ⊢
  have key := local_sim hf hs1 hp1 hPn hx hA2 hm2' hN2 (h2.place.trans e2) h3 (.inr hmade) (fun r m'' h => by
    rw [hm2'] at h ⊢
    rcases h with h | h <;> rw [hrun] at h <;> cases h
    exact ⟨hm'1, hm'2⟩)
  rw [← hm2]
  rw [← bind_assoc]
  refine Sim.bind (key.noErr fun m'' h => by rw [hm2', hrun] at h; cases h) ?_
  rintro ans ans' s3 hrun' ⟨⟨h4, h5⟩, h6, h7⟩
  have hans : ans' = ⟨⟨s1.mem.nbuf, 0⟩, N⟩ := by rw [hm2', hrun] at hrun'; cases hrun'; rfl
  obtain ⟨h7, h8, h9⟩ := h7
  have hlen : ans.len = N := by rw [hans] at h7; exact (congrArg Slice.len h7).symm
  have hpl : place s3 ans.ptr = ⟨s1.mem.nbuf, 0⟩ := by rw [hans] at h7; exact (congrArg Slice.ptr h7).symm
  have hu' : (loadBytes ans'.ptr ans'.len).run s3.mem ≠ .ub := Prog.safe_next (f := fun ans : Slice => loadBytes ans.ptr ans.len) hu (by rw [hm2'] at hrun'; exact hrun')
  rw [hans] at hu' ⊢
  rw [hlen]
  rw [hlen, Nat.one_mul] at h9
  dsimp only at hu' ⊢
  rw [← hpl] at hu' ⊢
  refine Sim.after (E' := fun _ => True) ((read_str_sim h4.sound h9.readable hu').noErr fun m'' h => ?_) ?_
  · unfold loadBytes Prog.run at h
    cases hq : s3.mem.read (place s3 ans.ptr) N <;> rw [hq] at h <;> cases h
  · rintro bs bs' s4 ⟨h10, rfl, hm4⟩
    rw [hpl] at h10
    have ho : NoOverlap P xs.length ⟨s1.mem.nbuf, 0⟩ N := Borrow.noOverlap_new hPn
    have h11 : AfterCall s2 s4 (G2 P xs.length src.buf ⟨s1.mem.nbuf, 0⟩ N s1.next) := h6.push h10 (tag2 h2.hi hN2.hi) fun b i => by
      by_cases h : In ⟨s1.mem.nbuf, 0⟩ N b i
      · rw [show G0 ⟨s1.mem.nbuf, 0⟩ N ans.ptr.buf b i = .shared ans.ptr.buf from over_in h,
          show G2 P xs.length src.buf ⟨s1.mem.nbuf, 0⟩ N s1.next b i = .excl s1.next from (over_out fun h' => Borrow.noOverlap_pt ho h' h).trans (over_in h)]
        exact .inr (.inr (.inr (.inl ⟨_, _, .inl rfl, rfl, h8⟩)))
      · exact .inl (over_out h)
    have h12 := h4.pushN h10 (tag0 hp1) fun b i u hu => .inl (over_out fun h => by have := hs1.has_lt hu; have := h.1; simp only at *; omega)
    have h13 := hN2.step h11 (fun b i hi => .inr ((over_out fun h' => Borrow.noOverlap_pt ho h' hi).trans (over_in hi))) (by rw [hm4]; exact h5.nbuf.trans hN2.nbuf.symm) (by
      rw [hm4]
      have : Out.ok (⟨⟨s1.mem.nbuf, 0⟩, N⟩ : Slice) m' = Out.ok ans' s3.mem := by rw [← hrun, ← hrun', hm2']
      injection this with _ e
      rw [← e, hm'2, hm2'])
    refine Sim.left (drop_local (E := fun _ => True) h13 hN0 hs1 h12 (tag0 hp1)) ?_
    rintro _ s5 hm5 ⟨-, h14, h15⟩
    rw [← hm5]
    exact ⟨rfl, h14, rfl, h15⟩

end Simd.Tree
