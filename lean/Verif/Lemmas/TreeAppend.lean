import Verif.Lemmas.TreeVec
import Verif.Lemmas.BorrowAppend
/-
Functions that append to a vector, with borrow trees.
-/
namespace Simd.Tree
open Spec
open Borrow (Good2 noOverlap_pt)

variable {α β γ δ : Type} {s s1 s2 s3 : State} {p q P Q : Ptr} {n m d t u N : Nat} {G : Nat → Nat → Loan} {v w : RVec} {xs : List Byte}

/-- A raw pointer to the source; the destination is a raw pointer already. -/
theorem raw_sim {mk : Ptr → Nat → BProg Ptr} (hmk : IsRaw mk) {K : Ptr → Ptr → Prog β} {Z : Ptr → BProg γ} {o : Out δ} {F : γ → δ → State → Prop} {E : State → Prop} (hs : Sound s) (hr : Readable s p n) (hm : Mutable s q d)
    (eP : place s p = P) (eQ : place s q = Q) (ho : NoOverlap P n Q d) (hG : Good2 K P n Q d s.mem)
    (hF : ∀ ρ a b, RenE ρ (K ⟨a, P.off⟩ ⟨b, Q.off⟩) (K ⟨ρ a, P.off⟩ ⟨ρ b, Q.off⟩)) (hu : ∀ a b : Ptr, Uses' (· = a.buf) (· = b.buf) (K a b))
    (hZ : ∀ r s1, s1.mem = s.mem → (∀ t, t < s.next → s1.home t = s.home t) →
      Sim (prog (K r q) s1) ((K P Q).run s1.mem) (fun v v' s' => v = v' ∧ Filled s s' P n p.buf Q d q.buf) (fun s' => Filled s s' P n p.buf Q d q.buf) → Sim (Z r s1) o F E) :
    Sim ((mk p n >>= Z) s) o F E := by
  subst eP eQ
  have hq := hm.1
  refine Sim.left (hmk.sim hs hr) ?_
  rintro r s1 hm1 ⟨h1, h2, h3⟩
  have h1' := h1.weaken (G2_src (Q := place s q) (d := d) (u := q.buf))
  have hmu := G2_mutable ho h1' hq hm
  have hnew : ∀ b i, Fits s s1 (G2 (place s p) n p.buf (place s q) d q.buf b i) (G2 (place s p) n r.buf (place s q) d q.buf b i) := fun b i => by
    by_cases h : In (place s p) n b i
    · exact .inr (.inr (.inr (.inl ⟨p.buf, r.buf, .inr (over_in h), over_in h, h2.toMade⟩)))
    · exact .inr (.inl ((over_out h).trans (over_out h).symm))
  rw [← hm1] at hG
  refine hZ r s1 hm1 h1.home ((kern2 (R := fun _ => Eq) h1.sound h2.place (AfterCall.place h1 hq) hG hF (hu r q) (by have := h2.lo; omega) ho h3 hmu).withRun.mono ?_ ?_)
  · rintro v v' s' ⟨⟨e, _, h⟩, hx⟩
    have hsh := (hu (place s p) (place s q)).shape (.inl ⟨_, hx⟩)
    exact ⟨e, h1'.push h (tag2 hr.1 hq) hnew, by rw [hsh.1, hm1], by rw [hsh.2, hm1]⟩
  · rintro s' ⟨⟨_, h⟩, hx⟩
    have hsh := (hu (place s p) (place s q)).shape (.inr hx)
    exact ⟨h1'.push h (tag2 hr.1 hq) hnew, by rw [hsh.1, hm1], by rw [hsh.2, hm1]⟩

/-- The source and the vector of a function that appends. -/
structure Ready (s : State) (p P : Ptr) (n : Nat) (xs : List Byte) (v : RVec) : Prop where
  sound : Sound s
  readable : Readable s p n
  place : place s p = P
  len : xs.length = n
  reads : Reads s.mem P xs
  owns : Owns s ⟨v.buf, 0⟩ v.cap
  le : v.len ≤ v.cap
  ne : P.buf ≠ s.home v.buf

theorem Ready.buf (h : Ready s p P n xs v) : P.buf < s.mem.nbuf := by rw [← h.place]; exact h.sound.alloc _ h.readable.1

/-- After the vector has grown: `w` has room for `m` bytes. -/
structure Room (s s2 : State) (p P : Ptr) (n : Nat) (xs : List Byte) (v w : RVec) (m : Nat) : Prop where
  grown : Grown s s2 P n p.buf v w
  ready : Ready s2 p P n xs w
  len : w.len = v.len
  room : w.len + m ≤ w.cap

namespace Room

theorem mutable (h : Room s s2 p P n xs v w m) : Mutable s2 ⟨w.buf, w.len⟩ m := ⟨h.grown.owns.mutable.1, fun b i hi => h.grown.owns.mutable.2 b i ⟨hi.1, Nat.zero_le _, by
  have h1 : i < w.len + m := hi.2.2
  have h2 := h.room
  show i < 0 + w.cap
  omega⟩⟩

theorem writable (h : Room s s2 p P n xs v w m) : Writable s2.mem ⟨s2.home w.buf, w.len⟩ m := by
  have h1 : s2.mem.size (s2.home w.buf) = w.cap := h.grown.owns.size
  show w.len + m ≤ s2.mem.size (s2.home w.buf)
  rw [h1]; exact h.room

theorem noOverlap (h : Room s s2 p P n xs v w m) : NoOverlap P n ⟨s2.home w.buf, w.len⟩ m := fun _ _ _ _ e => h.ready.ne e.1

theorem step (h : Room s s2 p P n xs v w m) (hR : Ready s p P n xs v) (hf : Filled s2 s3 P n p.buf ⟨s2.home w.buf, w.len⟩ m w.buf) : Grown s s3 P n p.buf v w :=
  h.grown.step hR.sound hR.readable.1 hR.owns hR.buf hR.ne h.room hf

end Room

theorem grow_sim (Pl : Plat) (extra : Nat) (hR : Ready s p P n xs v) {Y : RVec → BProg γ} {y : RVec → Prog δ} {F : γ → δ → State → Prop} {E : State → Prop}
    (hu : (RVec.reserve_exact Pl extra { v with buf := s.home v.buf } m >>= y).run s.mem ≠ .ub)
    (hY : ∀ w s2, (RVec.reserve_exact Pl extra { v with buf := s.home v.buf } m).run s.mem = .ok { w with buf := s2.home w.buf } s2.mem → Room s s2 p P n xs v w m →
      Sim (Y w s2) ((y { w with buf := s2.home w.buf }).run s2.mem) F E) :
    Sim ((reserve_exact Pl extra v m >>= Y) s) ((RVec.reserve_exact Pl extra { v with buf := s.home v.buf } m >>= y).run s.mem) F E := by
  refine Sim.bind (reserve_sim (P := P) (n := n) (t := p.buf) Pl extra hR.sound hR.owns hR.le (Prog.safe_head hu) hR.buf hR.ne) ?_
  rintro w _ s2 hrun ⟨hwl, hcap, rfl, hg, hcell, hsize⟩
  have hap := hg.apart hR.owns hR.buf hR.ne
  have eh : s2.home p.buf = s.home p.buf := hg.after.home _ hR.readable.1
  have ep : (place s p).buf ≠ s.home v.buf := by rw [hR.place]; exact hR.ne
  have hr2 : Readable s2 p n := by
    refine Readable.ofFreed (AfterCall.readable hg.after (fun b i hi => ?_) hR.readable) ?_
    · rw [hR.place] at hi
      exact .inr (.inl (over_in hi))
    · rw [eh]; exact hg.old _ (hR.sound.alloc _ hR.readable.1) ep
  refine hY w s2 hrun ⟨hg, ⟨hg.sound, hr2, ?_, hR.len, ⟨?_, fun i hi => ?_⟩, hg.owns, ?_, hap⟩, hwl, by omega⟩
  · rw [← hR.place]; unfold place; rw [eh]
  · rw [hsize _ hR.buf]; exact hR.reads.1
  · rw [hcell _ _ hR.buf]; exact hR.reads.2 i hi
  · omega

/-- What a function that appends has done. -/
abbrev AppOk (s : State) (P : Ptr) (n t : Nat) (v w w' : RVec) (s' : State) : Prop := Grown s s' P n t v w ∧ w' = { w with buf := s'.home w.buf }

/-- The end of `encode_append_vec`. -/
theorem append_enc {mk : Ptr → Nat → BProg Ptr} (hmk : IsRaw mk) {K : Ptr → Ptr → Prog Unit} (Pl : Plat) (extra : Nat) (hR : Ready s p P n xs v)
    (hG : ∀ M Q, Reads M P xs → Writable M Q m → NoOverlap P n Q m → Good2 K P n Q m M)
    (hF : ∀ ρ a b o, RenE ρ (K ⟨a, P.off⟩ ⟨b, o⟩) (K ⟨ρ a, P.off⟩ ⟨ρ b, o⟩)) (hu : ∀ a b : Ptr, Uses' (· = a.buf) (· = b.buf) (K a b))
    (hsafe : (RVec.reserve_exact Pl extra { v with buf := s.home v.buf } m >>= fun buf => padd ⟨buf.buf, 0⟩ buf.len >>= fun _ => K P ⟨buf.buf, buf.len⟩ >>= fun _ => liftO (Pl.addU buf.len m) >>= fun k => buf.set_len k).run s.mem ≠ .ub)
    (hne : ∀ m', (RVec.reserve_exact Pl extra { v with buf := s.home v.buf } m >>= fun buf => padd ⟨buf.buf, 0⟩ buf.len >>= fun _ => K P ⟨buf.buf, buf.len⟩ >>= fun _ => liftO (Pl.addU buf.len m) >>= fun k => buf.set_len k).run s.mem ≠ .err m') :
    Sim ((reserve_exact Pl extra v m >>= fun buf => mk p n >>= fun r => prog (padd ⟨buf.buf, 0⟩ buf.len) >>= fun _ => prog (K r ⟨buf.buf, buf.len⟩) >>= fun _ => prog (liftO (Pl.addU buf.len m)) >>= fun k => set_len buf k) s)
      ((RVec.reserve_exact Pl extra { v with buf := s.home v.buf } m >>= fun buf => padd ⟨buf.buf, 0⟩ buf.len >>= fun _ => K P ⟨buf.buf, buf.len⟩ >>= fun _ => liftO (Pl.addU buf.len m) >>= fun k => buf.set_len k).run s.mem)
      (AppOk s P n p.buf v) (fun _ => False) := by
  refine grow_sim Pl extra hR hsafe fun w s2 hrun hW => ?_
  have hsafe := Prog.safe_next hsafe hrun
  have hne := Prog.noerr_next hne hrun
  refine raw_sim (q := ⟨w.buf, w.len⟩) (Q := ⟨s2.home w.buf, w.len⟩) hmk hW.ready.sound hW.ready.readable hW.mutable hW.ready.place rfl hW.noOverlap (hG _ _ hW.ready.reads hW.writable hW.noOverlap)
    (fun ρ a b => hF ρ a b _) hu fun r s3 hm3 hh hK => ?_
  have eW : s3.home w.buf = s2.home w.buf := hh _ hW.grown.owns.mutable.1
  rw [← hm3] at hsafe hne ⊢
  have hpad := Prog.safe_head hsafe
  have hp : Sim (prog (padd ⟨w.buf, 0⟩ w.len) s3) ((padd ⟨s2.home w.buf, 0⟩ w.len).run s3.mem) (fun _ _ s' => s' = s3) (fun _ => False) := by
    rw [← eW] at hpad ⊢
    exact Sim.padd (p := ⟨w.buf, 0⟩) hpad
  refine Sim.bind hp ?_
  rintro _ _ _ hrun rfl
  have hsafe := Prog.safe_next hsafe hrun
  have hne := Prog.noerr_next hne hrun
  refine Sim.bind (hK.noErr (Prog.noerr_head hne)) ?_
  rintro _ _ s4 hrun ⟨rfl, hf⟩
  have hsafe := Prog.safe_next hsafe hrun
  refine Sim.bind (Sim.liftO _) ?_
  rintro k _ _ hrun ⟨rfl, rfl, -⟩
  have hsafe := Prog.safe_next hsafe hrun
  have eW4 : _ = s2.home w.buf := hf.after.home _ hW.grown.owns.mutable.1
  refine (set_len_sim eW4 hsafe).mono ?_ fun _ h => h
  rintro _ _ _ ⟨rfl, rfl, rfl⟩
  exact ⟨(hW.step hR hf).setLen _, by rw [← eW4]⟩

abbrev AppRes (s : State) (P : Ptr) (n t : Nat) (v : RVec) (w w' : RVec × Except Unit Unit) (s' : State) : Prop := AppOk s P n t v w.1 w'.1 s' ∧ w.2 = w'.2

/-- The end of `decode_append_vec`, after the pointers have been made. -/
theorem dec_end {x : Prog Unit} {K : Prog Unit} {C : Option Unit → BProg (RVec × Except Unit Unit)} {c : Option Unit → Prog (RVec × Except Unit Unit)} (Pl : Plat) (hR : Ready s p P n xs v)
    (hW : Room s s2 p P n xs v w m) (hC0 : C none = pure (w, .error ())) (hC1 : C (some ()) = prog (liftO (Pl.addU w.len m)) >>= fun k => set_len w k >>= fun b => pure (b, .ok ()))
    (hc0 : c none = pure ({ w with buf := s2.home w.buf }, .error ()))
    (hc1 : c (some ()) = liftO (Pl.addU w.len m) >>= fun k => RVec.set_len { w with buf := s2.home w.buf } k >>= fun b => pure (b, .ok ()))
    (hK : Sim (prog x s3) (K.run s3.mem) (fun v v' s' => v = v' ∧ Filled s2 s' P n p.buf ⟨s2.home w.buf, w.len⟩ m w.buf) (fun s' => Filled s2 s' P n p.buf ⟨s2.home w.buf, w.len⟩ m w.buf))
    (hsafe : (K.attempt >>= c).run s3.mem ≠ .ub) :
    Sim ((attempt (prog x) >>= C) s3) ((K.attempt >>= c).run s3.mem) (AppRes s P n p.buf v) (fun _ => False) := by
  refine Sim.bind (Sim.attempt hK) ?_
  rintro a b s4 hrun (⟨_, _, rfl, rfl, ⟨rfl, hf⟩, -⟩ | ⟨rfl, rfl, hf, -⟩)
  · have hsafe := Prog.safe_next hsafe hrun
    rw [hc1] at hsafe
    show Sim (C (some ()) s4) ((c (some ())).run s4.mem) _ _
    rw [hC1, hc1]
    refine Sim.bind (Sim.liftO _) ?_
    rintro k _ _ hrun ⟨rfl, rfl, -⟩
    have hsafe := Prog.safe_next hsafe hrun
    have eW4 : _ = s2.home w.buf := hf.after.home _ hW.grown.owns.mutable.1
    refine Sim.bind (set_len_sim eW4 (Prog.safe_head hsafe)) ?_
    rintro _ _ _ - ⟨rfl, rfl, rfl⟩
    exact ⟨rfl, ⟨(hW.step hR hf).setLen _, by rw [← eW4]⟩, rfl⟩
  · rw [hC0, hc0]
    have eW4 : s4.home w.buf = s2.home w.buf := hf.after.home _ hW.grown.owns.mutable.1
    exact ⟨rfl, ⟨hW.step hR hf, by rw [← eW4]⟩, rfl⟩

/-- The end of `decode_append_vec` of hex-simd. -/
theorem append_decA {mk : Ptr → Nat → BProg Ptr} (hmk : IsRaw mk) {K : Ptr → Ptr → Prog Unit} {C : RVec → Option Unit → BProg (RVec × Except Unit Unit)} {c : RVec → Option Unit → Prog (RVec × Except Unit Unit)}
    (Pl : Plat) (extra : Nat) (hR : Ready s p P n xs v)
    (hC0 : ∀ w, C w none = pure (w, .error ())) (hC1 : ∀ w : RVec, C w (some ()) = prog (liftO (Pl.addU w.len m)) >>= fun k => set_len w k >>= fun b => pure (b, .ok ()))
    (hc0 : ∀ w, c w none = pure (w, .error ())) (hc1 : ∀ w : RVec, c w (some ()) = liftO (Pl.addU w.len m) >>= fun k => RVec.set_len w k >>= fun b => pure (b, .ok ()))
    (hG : ∀ M Q, Reads M P xs → Writable M Q m → NoOverlap P n Q m → Good2 K P n Q m M)
    (hF : ∀ ρ a b o, RenE ρ (K ⟨a, P.off⟩ ⟨b, o⟩) (K ⟨ρ a, P.off⟩ ⟨ρ b, o⟩)) (hu : ∀ a b : Ptr, Uses' (· = a.buf) (· = b.buf) (K a b))
    (hsafe : (RVec.reserve_exact Pl extra { v with buf := s.home v.buf } m >>= fun buf => padd ⟨buf.buf, 0⟩ buf.len >>= fun _ => (K P ⟨buf.buf, buf.len⟩).attempt >>= c buf).run s.mem ≠ .ub) :
    Sim ((reserve_exact Pl extra v m >>= fun buf => mk p n >>= fun r => prog (padd ⟨buf.buf, 0⟩ buf.len) >>= fun _ => attempt (prog (K r ⟨buf.buf, buf.len⟩)) >>= C buf) s)
      ((RVec.reserve_exact Pl extra { v with buf := s.home v.buf } m >>= fun buf => padd ⟨buf.buf, 0⟩ buf.len >>= fun _ => (K P ⟨buf.buf, buf.len⟩).attempt >>= c buf).run s.mem)
      (AppRes s P n p.buf v) (fun _ => False) := by
  refine grow_sim Pl extra hR hsafe fun w s2 hrun hW => ?_
  have hsafe := Prog.safe_next hsafe hrun
  refine raw_sim (q := ⟨w.buf, w.len⟩) (Q := ⟨s2.home w.buf, w.len⟩) hmk hW.ready.sound hW.ready.readable hW.mutable hW.ready.place rfl hW.noOverlap (hG _ _ hW.ready.reads hW.writable hW.noOverlap)
    (fun ρ a b => hF ρ a b _) hu fun r s3 hm3 hh hK => ?_
  have eW : s3.home w.buf = s2.home w.buf := hh _ hW.grown.owns.mutable.1
  rw [← hm3] at hsafe ⊢
  have hpad := Prog.safe_head hsafe
  have hp : Sim (prog (padd ⟨w.buf, 0⟩ w.len) s3) ((padd ⟨s2.home w.buf, 0⟩ w.len).run s3.mem) (fun _ _ s' => s' = s3) (fun _ => False) := by
    rw [← eW] at hpad ⊢
    exact Sim.padd (p := ⟨w.buf, 0⟩) hpad
  refine Sim.bind hp ?_
  rintro _ _ _ hrun rfl
  have hsafe := Prog.safe_next hsafe hrun
  exact dec_end Pl hR hW (hC0 w) (hC1 w) (hc0 _) (hc1 _) hK hsafe

/-- The end of `decode_append_vec` of base64-simd and base32-simd. -/
theorem append_decB {mk : Ptr → Nat → BProg Ptr} (hmk : IsRaw mk) {K : Ptr → Ptr → Prog Unit} {C : RVec → Option Unit → BProg (RVec × Except Unit Unit)} {c : RVec → Option Unit → Prog (RVec × Except Unit Unit)}
    (Pl : Plat) (extra : Nat) (hR : Ready s p P n xs v)
    (hC0 : ∀ w, C w none = pure (w, .error ())) (hC1 : ∀ w : RVec, C w (some ()) = prog (liftO (Pl.addU w.len m)) >>= fun k => set_len w k >>= fun b => pure (b, .ok ()))
    (hc0 : ∀ w, c w none = pure (w, .error ())) (hc1 : ∀ w : RVec, c w (some ()) = liftO (Pl.addU w.len m) >>= fun k => RVec.set_len w k >>= fun b => pure (b, .ok ()))
    (hG : ∀ M Q, Reads M P xs → Writable M Q m → NoOverlap P n Q m → Good2 K P n Q m M)
    (hF : ∀ ρ a b o, RenE ρ (K ⟨a, P.off⟩ ⟨b, o⟩) (K ⟨ρ a, P.off⟩ ⟨ρ b, o⟩)) (hu : ∀ a b : Ptr, Uses' (· = a.buf) (· = b.buf) (K a b))
    (hsafe : (RVec.reserve_exact Pl extra { v with buf := s.home v.buf } m >>= fun buf => padd ⟨buf.buf, 0⟩ buf.len >>= fun _ => (K P ⟨buf.buf, buf.len⟩).attempt >>= c buf).run s.mem ≠ .ub) :
    Sim ((reserve_exact Pl extra v m >>= fun buf => prog (padd ⟨buf.buf, 0⟩ buf.len) >>= fun _ => mk p n >>= fun r => attempt (prog (K r ⟨buf.buf, buf.len⟩)) >>= C buf) s)
      ((RVec.reserve_exact Pl extra { v with buf := s.home v.buf } m >>= fun buf => padd ⟨buf.buf, 0⟩ buf.len >>= fun _ => (K P ⟨buf.buf, buf.len⟩).attempt >>= c buf).run s.mem)
      (AppRes s P n p.buf v) (fun _ => False) := by
  refine grow_sim Pl extra hR hsafe fun w s2 hrun hW => ?_
  have hsafe := Prog.safe_next hsafe hrun
  refine Sim.bind (Sim.padd (p := ⟨w.buf, 0⟩) (Prog.safe_head hsafe)) ?_
  rintro _ _ _ hrun rfl
  have hsafe := Prog.safe_next hsafe hrun
  refine raw_sim (q := ⟨w.buf, w.len⟩) hmk hW.ready.sound hW.ready.readable hW.mutable hW.ready.place rfl hW.noOverlap (hG _ _ hW.ready.reads hW.writable hW.noOverlap)
    (fun ρ a b => hF ρ a b _) hu fun r s3 hm3 hh hK => ?_
  rw [← hm3] at hsafe ⊢
  exact dec_end Pl hR hW (hC0 w) (hC1 w) (hc0 _) (hc1 _) hK hsafe

/-! ### Calls -/

theorem Grown.earlier (hs : Sound s) (ht : t < s.next) (hm : s1.mem = s.mem) (h0 : AfterCall s s1 (G0 P n t)) (hv : Owns s ⟨v.buf, 0⟩ v.cap) (h : Grown s1 s2 P n t v w) : Grown s s2 P n t v w := by
  have e : s1.home v.buf = s.home v.buf := h0.home _ hv.mutable.1
  have h1 := h.after
  unfold GA at h1
  rw [e] at h1
  refine ⟨AfterHeap.pushN (h0.weaken G2_src).heap h1 (tag2 ht hv.mutable.1) fun _ _ _ _ => .inr (.inl rfl), h.owns, fun b hu hb => (h.old b (by rw [hm]; exact hu) (by rw [e]; exact hb)).trans (h0.kept b hu), ?_⟩
  rcases h.which with ⟨h1, h2, h3⟩ | ⟨h1, h2, h3, h4⟩
  · exact .inl ⟨h1, h2, by rw [h3, hm]⟩
  · exact .inr ⟨Nat.le_trans h0.next h1, by rw [h2, hm], by rw [h3, hm], e ▸ h4⟩

theorem release_freed (s : State) (t : Nat) (f : Nat → Bool) : State.release { s with freed := f } t = (s.release t).map fun s' => { s' with freed := f } := by
  by_cases h : ∀ i, i < s.mem.size (s.home t) → ∀ u, u < s.next → s.Used t (s.home t) i → s.Sees t (s.home t) u → (s.last t (s.home t) i u).isSome
  · have e : s.release t = some _ := if_pos h
    have e' : State.release { s with freed := f } t = some _ := if_pos h
    rw [e, e']; rfl
  · have e : s.release t = none := if_neg h
    have e' : State.release { s with freed := f } t = none := if_neg h
    rw [e, e']; rfl

theorem releaseAll_freed (ts : List Nat) (s : State) (f : Nat → Bool) : State.releaseAll ts { s with freed := f } = (State.releaseAll ts s).map fun s' => { s' with freed := f } := by
  induction ts generalizing s with
  | nil => rfl
  | cons t ts ih =>
    unfold State.releaseAll
    rw [release_freed]
    cases s.release t with
    | none => rfl
    | some s1 => exact ih s1

/-- The end of a call is the same whatever has been deallocated. -/
theorem ret_freed (s : State) (f : Nat → Bool) : State.ret { s with freed := f } = s.ret.map fun s' => { s' with freed := f } := by
  unfold State.ret
  rw [releaseAll_freed]
  show Option.map _ (Option.map _ (State.releaseAll (s.guard.headD []) s)) = _
  cases State.releaseAll (s.guard.headD []) s <;> rfl

/-- A call whose body may deallocate. -/
theorem call_heap {k : Kind} {body : Ptr → BProg α} {o : Out β} {Q : α → β → State → Prop}
    (hs : Sound s) (hG : ∀ b i t, Of t (G b i) → t < s.next) (hr : Readable s p n)
    (hb : ∀ s1, s1.mem = s.mem → Sound s1 → Retagged { s with guard := [] :: s.guard } s1 true k p n → Sim (body ⟨s.next, p.off⟩ s1) o
      (fun a b s2 => AfterHeap s1 s2 (over (place s p) n (lent k s.next) G) ∧ ∀ s3, Back s2 s3 → Q a b s3) (fun _ => False)) :
    Sim (call (arg k p n >>= body) s) o (fun a b s' => AfterHeap s s' (over (place s p) n (lent k p.buf) G) ∧ Q a b s') (fun _ => False) := by
  have hsim : Sim ((arg k p n >>= body) { s with guard := [] :: s.guard }) o
      (fun a b s2 => ∃ s3, s2.ret = some s3 ∧ s3.mem = s2.mem ∧ AfterHeap s s3 (over (place s p) n (lent k p.buf) G) ∧ Q a b s3) (fun _ => False) := by
    refine Sim.left (x := arg k p n) (E' := fun _ => False) (retag_sim (s := { s with guard := [] :: s.guard }) hr.enter) fun r s1 hm h => ?_
    obtain ⟨rfl, h⟩ := h
    have hs1 := h.sound (sound_enter hs) hr.1
    refine (hb s1 hm hs1 h).mono (fun a b s2 h2 => ?_) fun _ h => h
    obtain ⟨s3', e1, e2, e3⟩ := call_after hs hr.1 hG h hs1 h2.1
    rw [ret_freed] at e1
    obtain ⟨s3, e4, rfl⟩ := Option.map_eq_some_iff.1 e1
    rw [show s1.freed = s.freed from h.freed] at e3
    exact ⟨s3, e4, e2, e3, h2.2 s3 ⟨h2.1.sound.ofFreed, e4⟩⟩
  unfold call
  revert hsim
  cases (arg k p n >>= body) { s with guard := [] :: s.guard } <;> cases o <;> intro hsim <;> first | exact hsim.elim | trivial | skip
  · obtain ⟨e, s3, e1, e2, e3⟩ := hsim
    simp only [e1]
    exact ⟨e2.trans e, e3⟩
  · exact hsim.2.elim

/-- A function that is lent a source and appends to a vector. -/
theorem append_call {body : Ptr → BProg α} {y : Prog β} {W : α → RVec} {F : State → α → β → Prop} (hF : ∀ s s' a b, s'.home = s.home → F s a b → F s' a b) (hR : Ready s p P n xs v)
    (hb : ∀ s1 p1, s1.mem = s.mem → s1.home v.buf = s.home v.buf → Ready s1 p1 P n xs v →
      Sim (body p1 s1) (y.run s1.mem) (fun r r' s' => Grown s1 s' P n p1.buf v (W r) ∧ F s' r r') (fun _ => False)) :
    Sim (call (arg .shared p n >>= body) s) (y.run s.mem) (fun r r' s' => Grown s s' P n p.buf v (W r) ∧ F s' r r') (fun _ => False) := by
  obtain ⟨hs, hr, rfl, hl, hx, hO, hle, hne⟩ := hR
  have hv := hO.mutable.1
  refine (call_heap (k := .shared) (G := over ⟨s.home v.buf, 0⟩ v.cap (.excl v.buf) nothing) (Q := fun r r' s3 => Owns s3 ⟨(W r).buf, 0⟩ (W r).cap ∧ (∀ b, b < s.mem.nbuf → b ≠ s.home v.buf → s3.freed b = s.freed b) ∧
      (((W r).buf = v.buf ∧ (W r).cap = v.cap ∧ s3.mem.nbuf = s.mem.nbuf) ∨ s.next ≤ (W r).buf ∧ s3.home (W r).buf = s.mem.nbuf ∧ s3.mem.nbuf = s.mem.nbuf + 1 ∧ Freed s3 (s.home v.buf)) ∧ F s3 r r')
    hs (over_tag (excl_tag hv) nothing_tag) hr fun s1 hm1 hs1 h => ?_).mono (fun r r' s' h => ⟨⟨h.1, h.2.1, h.2.2.1, h.2.2.2.1⟩, h.2.2.2.2⟩) fun _ h => h
  obtain ⟨hn, -, hg, hu⟩ := h.enter
  have hhome : s1.home v.buf = s.home v.buf := h.home_old hv
  have hO1 : Owns s1 ⟨v.buf, 0⟩ v.cap := by
    refine ⟨rfl, by dsimp only; rw [hhome, hm1]; exact hO.size, h.other hs hO.mutable fun b i h1 h2 => hne (h1.1.symm.trans h2.1), fun u hu => ?_⟩
    have hu2 : s1.home u = s.home v.buf := hu.2.trans hhome
    have hne' : u ≠ s.next := fun e => hne (by
      rw [e] at hu2
      exact (show s1.home s.next = s.home p.buf from h.home_new).symm.trans hu2)
    have hlt : u < s.next := by have := hu.1; omega
    rw [h.prot_old hne']
    have := hO.unprotected u ⟨hlt, (show s1.home u = s.home u from h.home_old hlt).symm.trans hu2⟩
    simpa [State.prot] using this
  have := hb s1 ⟨s.next, p.off⟩ hm1 hhome ⟨hs1, h.readable (sound_enter hs) hr.enter, h.place_new, hl, by rw [hm1]; exact hx, hO1, hle, by rw [hhome]; exact hne⟩
  rw [hm1] at this
  refine this.mono ?_ fun _ h => h
  rintro r r' s2 ⟨hg, hf⟩
  have h2 := hg.after
  unfold GA at h2
  rw [hhome] at h2
  refine ⟨h2, fun s3 hb => ⟨Own.back hg.owns hb, fun b hu hb' => ?_, ?_, hF _ _ _ _ hb.facts.2.2.2.2.1 hf⟩⟩
  · rw [hb.facts.2.2.2.2.2.2.1, hg.old b (by rw [hm1]; exact hu) (by rw [hhome]; exact hb'), h.freed]
  · obtain ⟨-, a2, -, -, a5, -⟩ := hb.facts
    rcases hg.which with ⟨h1, h2, h3⟩ | ⟨h1, h2, h3, h4⟩
    · exact .inl ⟨h1, h2, by rw [a2, h3, hm1]⟩
    · exact .inr ⟨by omega, by rw [a5, h2, hm1], by rw [a2, h3, hm1], hb.freed (hhome ▸ h4)⟩

end Simd.Tree
