import Verif.Lemmas.TreeBoxes
import Verif.Lemmas.BorrowVec
/-
Vectors with borrow trees.
-/
namespace Simd.Tree
open Spec

variable {α β γ δ : Type} {s s1 s2 s3 : State} {p q P Q : Ptr} {n m d t u N : Nat} {G : Nat → Nat → Loan} {v w : RVec} {xs : List Byte}

/-! ### Owners -/

namespace Own

theorem in_iff (h : Owns s p n) {b i : Nat} : In (place s p) n b i ↔ b = s.home p.buf ∧ i < n := by
  show (b = s.home p.buf ∧ p.off ≤ i ∧ i < p.off + n) ↔ _
  rw [h.start]; omega

/-- An owner is still one after what was done with it. -/
theorem after (h : Owns s p n) (h' : AfterCall s s1 G) (hG : ∀ i, i < n → G (s.home p.buf) i = .none ∨ G (s.home p.buf) i = .excl p.buf) : Owns s1 p n := by
  have eh := h'.home _ h.mutable.1
  refine ⟨h.start, by rw [eh, h'.size _ p.buf ⟨h.mutable.1, rfl⟩]; exact h.size, h'.mutable (fun b i hi => ?_) h.mutable, fun u hu => ?_⟩
  · obtain ⟨rfl, hi'⟩ := (in_iff h).1 hi
    exact (hG i hi').imp id .inr
  · by_cases hn : u < s.next
    · rw [prot_eq h'.guard]
      exact h.unprotected u ⟨hn, (h'.home u hn).symm.trans (hu.2.trans eh)⟩
    · exact h'.fresh u (by omega)

theorem ofFreed {f : Nat → Bool} (h : Owns { s with freed := f } p n) (hf : s.freed (s.home p.buf) = f (s.home p.buf)) : Owns s p n := ⟨h.start, h.size, h.mutable.ofFreed hf, h.unprotected⟩

theorem afterHeap (h : Owns s p n) (h' : AfterHeap s s1 G) (hG : ∀ i, i < n → G (s.home p.buf) i = .none ∨ G (s.home p.buf) i = .excl p.buf)
    (hf : s1.freed (s.home p.buf) = s.freed (s.home p.buf)) : Owns s1 p n :=
  ofFreed (after h h' hG) (by rw [show s1.home p.buf = _ from h'.home _ h.mutable.1]; exact hf)

theorem back (h : Owns s p n) (hb : Back s s1) : Owns s1 p n := by
  obtain ⟨-, a2, a3, a4, a5, -⟩ := hb.facts
  refine ⟨h.start, by rw [a2, a5]; exact h.size, hb.mutable h.mutable, fun u hu => ?_⟩
  have h1 := h.unprotected u ⟨by rw [← a3]; exact hu.1, by rw [← a5]; exact hu.2⟩
  cases e : s1.prot u
  · rfl
  · rw [prot_tail a4 e] at h1; cases h1

end Own

/-! ### What a function has been lent that appends to a vector -/

/-- The source and the vector. -/
noncomputable abbrev GA (s : State) (P : Ptr) (n t : Nat) (v : RVec) : Nat → Nat → Loan := G2 P n t ⟨s.home v.buf, 0⟩ v.cap v.buf

/-- `w` is what became of the vector `v`. -/
structure Grown (s s' : State) (P : Ptr) (n t : Nat) (v w : RVec) : Prop where
  after : AfterHeap s s' (GA s P n t v)
  owns : Owns s' ⟨w.buf, 0⟩ w.cap
  old : ∀ b, b < s.mem.nbuf → b ≠ s.home v.buf → s'.freed b = s.freed b
  which : (w.buf = v.buf ∧ w.cap = v.cap ∧ s'.mem.nbuf = s.mem.nbuf) ∨ s.next ≤ w.buf ∧ s'.home w.buf = s.mem.nbuf ∧ s'.mem.nbuf = s.mem.nbuf + 1 ∧ Freed s' (s.home v.buf)

theorem Grown.refl (hs : Sound s) (h : Owns s ⟨v.buf, 0⟩ v.cap) : Grown s s P n t v v := ⟨(AfterCall.refl hs _).heap, h, fun _ _ _ => rfl, .inl ⟨rfl, rfl, rfl⟩⟩

theorem Grown.setLen (h : Grown s s1 P n t v w) (k : Nat) : Grown s s1 P n t v { w with len := k } := ⟨h.after, h.owns, h.old, h.which⟩

theorem Grown.sound (h : Grown s s1 P n t v w) : Sound s1 := h.after.sound.ofFreed

/-- Where the vector is. -/
theorem Grown.home (h : Grown s s1 P n t v w) (hv : Owns s ⟨v.buf, 0⟩ v.cap) : s1.home w.buf = s.home v.buf ∧ w.buf = v.buf ∨ s1.home w.buf = s.mem.nbuf ∧ s.next ≤ w.buf := by
  rcases h.which with ⟨e, -⟩ | ⟨h1, h2, -⟩
  · exact .inl ⟨by rw [e]; exact h.after.home _ hv.mutable.1, e⟩
  · exact .inr ⟨h2, h1⟩

theorem Grown.apart (h : Grown s s1 P n t v w) (hv : Owns s ⟨v.buf, 0⟩ v.cap) (hP : P.buf < s.mem.nbuf) (hne : P.buf ≠ s.home v.buf) : P.buf ≠ s1.home w.buf := by
  rcases h.home hv with ⟨e, -⟩ | ⟨e, -⟩ <;> rw [e]
  · exact hne
  · omega

/-- The source has been read, and the vector written. -/
theorem Grown.step (hs : Sound s) (ht : t < s.next) (h : Grown s s1 P n t v w) (hv : Owns s ⟨v.buf, 0⟩ v.cap) (hP : P.buf < s.mem.nbuf) (hne : P.buf ≠ s.home v.buf) {o : Nat} (hd : o + d ≤ w.cap)
    (h' : Filled s1 s2 P n t ⟨s1.home w.buf, o⟩ d w.buf) : Grown s s2 P n t v w := by
  have hap := h.apart hv hP hne
  refine ⟨h.after.pushN h'.after.heap (tag2 ht hv.mutable.1) fun b i u hu => ?_, Own.after h.owns h'.after fun i _ => ?_, fun b hu hb => (h'.after.kept b (Nat.lt_of_lt_of_le hu h.after.nbuf)).trans (h.old b hu hb), ?_⟩
  · by_cases h1 : In P n b i
    · exact .inr (.inl ((over_in h1).trans (over_in h1).symm))
    · rw [show GA s P n t v b i = _ from over_out h1, show G2 P n t ⟨s1.home w.buf, o⟩ d w.buf b i = _ from over_out h1]
      by_cases h2 : In ⟨s1.home w.buf, o⟩ d b i
      · rw [over_in h2]
        obtain ⟨rfl, -, h4⟩ := h2
        dsimp only at h4
        rcases h.which with ⟨e, ec, -⟩ | ⟨e1, e2, -⟩
        · have eh : s1.home w.buf = s.home v.buf := by rw [e]; exact h.after.home _ hv.mutable.1
          refine .inr (.inl ?_)
          rw [over_in ⟨eh, Nat.zero_le _, by show i < 0 + v.cap; omega⟩, e]
        · have := hs.has_lt hu
          dsimp only at this
          omega
      · rw [over_out h2]; exact .inl rfl
  · dsimp only
    by_cases h2 : In ⟨s1.home w.buf, o⟩ d (s1.home w.buf) i
    · exact .inr ((over_out fun h => hap h.1.symm).trans (over_in h2))
    · exact .inl ((over_out fun h => hap h.1.symm).trans (over_out h2))
  · rcases h.which with ⟨e, e'⟩ | ⟨e1, e2, e3, e4⟩
    · exact .inl ⟨e, e'.1, h'.nbuf.trans e'.2⟩
    · refine .inr ⟨e1, (h'.after.home _ h.owns.mutable.1).trans e2, h'.nbuf.trans e3, ?_⟩
      unfold Freed
      rw [h'.size, h'.after.live _ v.buf (h.after.has ⟨hv.mutable.1, rfl⟩)]
      exact e4

/-! ### Growing -/

theorem load_sim {k : Nat} (hs : Sound s) (hr : Readable s p k) (hu : (loadBytes (place s p) k).run s.mem ≠ .ub) {E : State → Prop} :
    Sim (prog (loadBytes p k) s) ((loadBytes (place s p) k).run s.mem) (fun bs bs' s' => bs = bs' ∧ bs.length = k ∧ s'.mem = s.mem ∧ AfterCall s s' (G1 (place s p) k p.buf)) E := by
  obtain ⟨S, h1, h2, h3⟩ := touch_ok hr.2
  have e : (loadBytes (place s p) k).run s.mem = match s.mem.read (place s p) k with | some bs => .ok bs s.mem | none => .ub := by
    unfold loadBytes Prog.run
    cases s.mem.read (place s p) k <;> rfl
  have e' : prog (loadBytes p k) s = match s.touch false p k, s.mem.read (place s p) k with | some st, some bs => .ok bs { s with cell := st } | _, _ => .ub := by
    unfold loadBytes
    rw [prog]
    show (match s.touch false p k, s.mem.read (place s p) k with | some st, some bs => _ | _, _ => _) = _
    cases s.touch false p k <;> cases s.mem.read (place s p) k <;> rfl
  rw [e] at hu
  rw [e, e', h1]
  cases hm : s.mem.read (place s p) k with
  | none => rw [hm] at hu; exact absurd rfl hu
  | some bs => exact ⟨rfl, rfl, read_length hm, rfl, access_after hs h2 h3 (.inl rfl) rfl rfl⟩

theorem store_sim {bs : List Byte} (hs : Sound s) (hm : Mutable s p bs.length) (hb : p.off + bs.length ≤ s.mem.size (s.home p.buf)) {E : State → Prop} :
    Sim (prog (storeBytes p bs) s) ((storeBytes (place s p) bs).run s.mem) (fun _ _ s' => s'.mem = s.mem.write (place s p) bs ∧ AfterCall s s' (G1 (place s p) bs.length p.buf)) E := by
  obtain ⟨S, h1, h2, h3⟩ := touch_ok hm.2
  have e : (storeBytes (place s p) bs).run s.mem = .ok () (s.mem.write (place s p) bs) := if_pos hb
  have e' : prog (storeBytes p bs) s = match s.touch true p bs.length with
      | some st => if p.off + bs.length ≤ s.mem.size (s.home p.buf) then .ok () { s with cell := st, mem := s.mem.write (place s p) bs } else .ub
      | none => .ub := rfl
  rw [e, e', h1]
  dsimp only
  rw [if_pos hb]
  exact ⟨rfl, rfl, access_after hs h2 h3 (.inl rfl) rfl rfl⟩

theorem reserve_sim (Pl : Plat) (extra : Nat) (hs : Sound s) (hO : Owns s ⟨v.buf, 0⟩ v.cap) (hl : v.len ≤ v.cap)
    (hu : (Simd.RVec.reserve_exact Pl extra { v with buf := s.home v.buf } m).run s.mem ≠ .ub) (hP : P.buf < s.mem.nbuf) (hne : P.buf ≠ s.home v.buf) {E : State → Prop} :
    Sim (reserve_exact Pl extra v m s) ((Simd.RVec.reserve_exact Pl extra { v with buf := s.home v.buf } m).run s.mem)
      (fun w w' s' => w.len = v.len ∧ v.len + m ≤ w.cap ∧ w' = { w with buf := s'.home w.buf } ∧ Grown s s' P n t v w ∧ (∀ b i, b < s.mem.nbuf → s'.mem.cell b i = s.mem.cell b i) ∧
        ∀ b, b < s.mem.nbuf → s'.mem.size b = s.mem.size b) E := by
  unfold reserve_exact
  unfold RVec.reserve_exact at hu ⊢
  dsimp only at hu ⊢
  by_cases hc : m ≤ v.cap - v.len
  · rw [if_pos hc, if_pos hc]
    exact ⟨rfl, rfl, by omega, rfl, Grown.refl hs hO, fun _ _ _ => rfl, fun _ _ => rfl⟩
  · rw [if_neg hc] at hu
    rw [if_neg hc, if_neg hc]
    by_cases hc' : v.len + m + extra ≤ Pl.isizeMax
    · rw [if_pos hc'] at hu
      rw [if_pos hc', if_pos hc']
      have hex : s.home v.buf < s.mem.nbuf := hs.alloc _ hO.mutable.1
      refine Sim.bind (load_sim hs (hO.mutable.readable.mono hl) (Prog.safe_head hu)) ?_
      rintro old _ s1 hrun ⟨rfl, hlen, hm1, h1⟩
      generalize hL : v.len + m + extra = L
      have hn1 : s1.mem.nbuf = s.mem.nbuf := by rw [hm1]
      have hs1 := h1.sound
      have h2 := after_alloc hs1 L
      have hN := owner_alloc hs1 L
      have O1 : Owns s1 ⟨v.buf, 0⟩ v.cap := Own.after hO h1 fun i _ => by
        dsimp only
        by_cases hi : In (place s ⟨v.buf, 0⟩) v.len (s.home v.buf) i
        · exact .inr (over_in hi)
        · exact .inl (over_out hi)
      have e1 : s1.home v.buf = s.home v.buf := h1.home _ hO.mutable.1
      have O2 := Own.after O1 h2 fun i _ => .inl rfl
      have e2 : (State.allocated s1 L).home v.buf = s.home v.buf := (h2.home _ O1.mutable.1).trans e1
      rw [← hm1]
      show Sim ((prog (storeBytes ⟨s1.next, 0⟩ old) >>= fun _ => drop_vec v >>= fun _ => pure (⟨s1.next, v.len, L⟩ : RVec)) (State.allocated s1 L))
        ((storeBytes ⟨s1.mem.nbuf, 0⟩ old >>= fun _ => pure (⟨s1.mem.nbuf, v.len, L⟩ : RVec)).run (State.allocated s1 L).mem) _ _
      have hst := store_sim (s := State.allocated s1 L) (p := ⟨s1.next, 0⟩) (bs := old) (E := E) h2.sound (hN.mutable.mono (by omega)) (by
        show 0 + old.length ≤ _
        rw [show (State.allocated s1 L).home s1.next = _ from hN.home, hN.size]; omega)
      rw [hN.place_eq] at hst
      refine Sim.bind hst ?_
      rintro _ _ s3 - ⟨hm3, h3⟩
      dsimp only at h3
      have hdis : ∀ i, G1 ⟨s1.mem.nbuf, 0⟩ old.length s1.next (s.home v.buf) i = .none := fun i => over_out fun h => by
        have : s.home v.buf = s1.mem.nbuf := h.1
        omega
      have O3 : Owns s3 ⟨v.buf, 0⟩ v.cap := Own.after O2 h3 fun i _ => .inl (by dsimp only; rw [e2]; exact hdis i)
      have e3 : s3.home v.buf = s.home v.buf := (h3.home _ O2.mutable.1).trans e2
      have hMn : s3.mem.nbuf = s.mem.nbuf + 1 := by rw [hm3, ← hn1]; rfl
      have hMs : ∀ b, b < s.mem.nbuf → s3.mem.size b = s.mem.size b := fun b hb => by
        rw [hm3, ← hm1]
        exact if_neg (by omega)
      have hMc : ∀ b i, b < s.mem.nbuf → s3.mem.cell b i = s.mem.cell b i := fun b i hb => by
        rw [hm3, ← hm1]
        show (if b = s1.mem.nbuf ∧ _ then _ else if b = s1.mem.nbuf then none else s1.mem.cell b i) = _
        rw [if_neg (by omega), if_neg (by omega)]
      have h13 : AfterCall s1 s3 nothing := h2.pushN h3 nothing_tag (fits_new hs1 (Nat.le_refl _))
      have hN3 : NewOwner s1 s3 ⟨s1.next, 0⟩ L := hN.step h3 (fun b i _ => by
        by_cases hi : In ⟨s1.mem.nbuf, 0⟩ old.length b i
        · exact .inr (over_in hi)
        · exact .inl (over_out hi)) (by rw [hm3]; rfl) (by rw [hm3]; rfl)
      refine Sim.left (x := drop_vec v) (E' := fun _ => True) (drop_sim rfl h3.sound O3) ?_
      rintro _ s4 hm4 ⟨h4, hf, hf'⟩
      have eP : place s3 ⟨v.buf, 0⟩ = ⟨s.home v.buf, 0⟩ := by unfold place; rw [e3]
      rw [eP] at h4
      dsimp only at h4 hf hf'
      rw [e3] at hf hf'
      have hnew3 : s3.home s1.next = s.mem.nbuf := hN3.home.trans hn1
      have h14 : AfterHeap s s4 (G1 ⟨s.home v.buf, 0⟩ v.cap v.buf) := by
        refine AfterHeap.pushN (s1 := s3) (AfterCall.heap ?_) h4 (tag1 hO.mutable.1) fun _ _ _ _ => .inr (.inl rfl)
        refine AfterCall.pushN (h1.weaken fun b i => ?_) h13 (tag1 hO.mutable.1) fun _ _ _ _ => .inl rfl
        by_cases hi : In (place s ⟨v.buf, 0⟩) v.len b i
        · exact .inr ((over_in hi).trans (over_in (in_mono hl hi)).symm)
        · exact .inl (over_out hi)
      have hnew4 : s4.home s1.next = s.mem.nbuf := (h4.home _ hN3.hi).trans hnew3
      have hno : s.mem.nbuf ≠ s.home v.buf := by omega
      have O4 : Owns s4 ⟨s1.next, 0⟩ L := Own.afterHeap (hN3.owns hs1 h13.heap) h4 (fun i _ => .inl (over_out fun h => by
        have : s3.home s1.next = s.home v.buf := h.1
        omega)) (hf' _ (by dsimp only; rw [hnew3]; exact hno))
      refine ⟨hm4, rfl, by show v.len + m ≤ L; omega, ?_, ⟨h14.weaken fun b i => ?_, O4, fun b hu hb => ?_, .inr ⟨h1.next, hnew4, by rw [hm4]; exact hMn, hf⟩⟩, fun b i hb => by rw [hm4, hm1]; exact hMc b i (by rw [← hn1]; exact hb),
        fun b hb => by rw [hm4, hm1]; exact hMs b (by rw [← hn1]; exact hb)⟩
      · show (⟨s1.mem.nbuf, v.len, L⟩ : RVec) = ⟨s4.home s1.next, v.len, L⟩
        rw [hnew4, hn1]
      · by_cases hi : In ⟨s.home v.buf, 0⟩ v.cap b i
        · exact .inr (over_out fun h => hne (h.1.symm.trans hi.1)).symm
        · exact .inl (over_out hi)
      · rw [hf' b hb, h13.kept b (Nat.lt_of_lt_of_le hu h1.nbuf), h1.kept b hu]
    · rw [if_neg hc', if_neg hc']; trivial

theorem set_len_sim {k : Nat} {V : Nat} (hV : s.home v.buf = V) (hu : (Simd.RVec.set_len { v with buf := V } k).run s.mem ≠ .ub) {E : State → Prop} :
    Sim (set_len v k s) ((Simd.RVec.set_len { v with buf := V } k).run s.mem) (fun w w' s' => s' = s ∧ w = { v with len := k } ∧ w' = { w with buf := V }) E := by
  subst hV
  unfold set_len
  unfold RVec.set_len at hu ⊢
  dsimp only at hu ⊢
  by_cases hc : k ≤ v.cap
  · rw [if_pos hc] at hu
    rw [if_pos hc, if_pos hc]
    have e : Prog.run (do let _ ← loadBytes ⟨s.home v.buf, 0⟩ k; pure { buf := s.home v.buf, len := k, cap := v.cap : RVec }) s.mem = match s.mem.read ⟨s.home v.buf, 0⟩ k with
        | some _ => .ok { buf := s.home v.buf, len := k, cap := v.cap } s.mem
        | none => .ub := by
      show (Prog.load _ _ _).run s.mem = _
      unfold Prog.run
      cases s.mem.read ⟨s.home v.buf, 0⟩ k <;> rfl
    rw [e] at hu ⊢
    show Sim (BProg.bind (inited ⟨v.buf, 0⟩ k) _ s) _ _ _
    unfold BProg.bind inited
    dsimp only
    cases hr : s.mem.read ⟨s.home v.buf, 0⟩ k with
    | none => rw [hr] at hu; exact absurd rfl hu
    | some bs => exact ⟨rfl, rfl, rfl, rfl⟩
  · rw [if_neg hc] at hu; exact absurd rfl hu

end Simd.Tree
