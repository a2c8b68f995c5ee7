import Verif.Lemmas.BorrowVec
/-
Functions that append to a vector, with borrow stacks.
-/
namespace Simd.Borrow
open Spec

variable {α β γ δ : Type} {s s1 s2 s3 : State} {p q P Q : Ptr} {n m d t u N : Nat} {G : Nat → Nat → Loan} {v w : RVec} {xs : List Byte}

/-- A raw pointer to the source; the destination is a raw pointer already. -/
theorem raw_sim {mk : Ptr → Nat → BProg Ptr} (hmk : IsRaw mk) {K : Ptr → Ptr → Prog β} {Z : Ptr → BProg γ} {o : Out δ} {F : γ → δ → State → Prop} {E : State → Prop} (hs : Sound s) (hr : Readable s p n) (hm : Mutable s q d)
    (hq : q.buf < s.next) (eP : place s p = P) (eQ : place s q = Q) (ho : NoOverlap P n Q d) (hG : Good2 K P n Q d s.mem)
    (hF : ∀ ρ a b, RenE ρ (K ⟨a, P.off⟩ ⟨b, Q.off⟩) (K ⟨ρ a, P.off⟩ ⟨ρ b, Q.off⟩)) (hu : ∀ a b : Ptr, Uses' (· = a.buf) (· = b.buf) (K a b))
    (hZ : ∀ r s1, s1.mem = s.mem → (∀ t, t < s.next → s1.home t = s.home t) →
      Sim (prog (K r q) s1) ((K P Q).run s1.mem) (fun v v' s' => v = v' ∧ Filled s s' P n p.buf Q d q.buf) (fun s' => Filled s s' P n p.buf Q d q.buf) → Sim (Z r s1) o F E) :
    Sim ((mk p n >>= Z) s) o F E := by
  subst eP eQ
  refine Sim.left (hmk.sim hs hr) ?_
  rintro r s1 hm1 ⟨h1, h2, h3⟩
  have h1' := h1.weaken (G2_src (Q := place s q) (d := d) (u := q.buf))
  have hd := none_or (s := s) (G2_dst (P := place s p) (n := n) (t := p.buf) (u := q.buf) ho (Nat.le_refl d))
  rw [← hm1] at hG
  refine hZ r s1 hm1 h1.home ((kern2 (R := fun _ => Eq) h2.place (AfterCall.place h1 hq) hG hF (hu r q) (by have := h2.lo; omega) ho h3 (G2_mutable ho h1' hq hm)).withRun.mono ?_ ?_)
  · rintro v v' s' ⟨⟨e, _, h⟩, hx⟩
    have hsh := (hu (place s p) (place s q)).shape (.inl ⟨_, hx⟩)
    exact ⟨e, h1'.push hs h hd, by rw [hsh.1, hm1], by rw [hsh.2, hm1]⟩
  · rintro s' ⟨⟨_, h⟩, hx⟩
    have hsh := (hu (place s p) (place s q)).shape (.inr hx)
    exact ⟨h1'.push hs h hd, by rw [hsh.1, hm1], by rw [hsh.2, hm1]⟩

/-- The source and the vector of a function that appends. -/
structure Ready (s : State) (p P : Ptr) (n : Nat) (xs : List Byte) (v : RVec) : Prop where
  sound : Sound s
  readable : Readable s p n
  tag : p.buf < s.next
  place : place s p = P
  buf : P.buf < s.mem.nbuf
  len : xs.length = n
  reads : Reads s.mem P xs
  owns : Owns s ⟨v.buf, 0⟩ v.cap
  le : v.len ≤ v.cap
  ne : P.buf ≠ s.home v.buf

/-- After the vector has grown: `w` has room for `m` bytes. -/
structure Room (s s2 : State) (p P : Ptr) (n : Nat) (xs : List Byte) (v w : RVec) (m : Nat) : Prop where
  grown : Grown s s2 P n p.buf v w
  ready : Ready s2 p P n xs w
  len : w.len = v.len
  room : w.len + m ≤ w.cap

namespace Room

theorem mutable (h : Room s s2 p P n xs v w m) : Mutable s2 ⟨w.buf, w.len⟩ m := fun b i hi => h.grown.owns.mutable b i ⟨hi.1, Nat.zero_le _, by
  have h1 : i < w.len + m := hi.2.2
  have h2 := h.room
  show i < 0 + w.cap
  omega⟩

theorem writable (h : Room s s2 p P n xs v w m) : Writable s2.mem ⟨s2.home w.buf, w.len⟩ m := by
  have h1 : s2.mem.size (s2.home w.buf) = w.cap := h.grown.owns.size
  show w.len + m ≤ s2.mem.size (s2.home w.buf)
  rw [h1]; exact h.room

theorem noOverlap (h : Room s s2 p P n xs v w m) : NoOverlap P n ⟨s2.home w.buf, w.len⟩ m := fun _ _ _ _ e => h.ready.ne e.1

theorem step (h : Room s s2 p P n xs v w m) (hR : Ready s p P n xs v) (hf : Filled s2 s3 P n p.buf ⟨s2.home w.buf, w.len⟩ m w.buf) : Grown s s3 P n p.buf v w :=
  h.grown.step hR.sound hR.owns hR.buf hR.ne h.room hf

end Room

theorem grow_sim (Pl : Plat) (extra : Nat) (hR : Ready s p P n xs v) {Y : RVec → BProg γ} {y : RVec → Prog δ} {F : γ → δ → State → Prop} {E : State → Prop}
    (hu : (RVec.reserve_exact Pl extra { v with buf := s.home v.buf } m >>= y).run s.mem ≠ .ub)
    (hY : ∀ w s2, (RVec.reserve_exact Pl extra { v with buf := s.home v.buf } m).run s.mem = .ok { w with buf := s2.home w.buf } s2.mem → Room s s2 p P n xs v w m →
      Sim (Y w s2) ((y { w with buf := s2.home w.buf }).run s2.mem) F E) :
    Sim ((reserve_exact Pl extra v m >>= Y) s) ((RVec.reserve_exact Pl extra { v with buf := s.home v.buf } m >>= y).run s.mem) F E := by
  refine Sim.bind (reserve_sim (P := P) (n := n) (t := p.buf) Pl extra hR.sound hR.owns hR.le (Prog.safe_head hu) hR.buf hR.ne) ?_
  rintro w _ s2 hrun ⟨hwl, hcap, rfl, hg, hcell, hsize, hstk⟩
  refine hY w s2 hrun ⟨hg, ⟨hg.after.sound hR.sound, fun b i hi => ?_, Nat.lt_of_lt_of_le hR.tag hg.after.next, (AfterCall.place hg.after hR.tag).trans hR.place, ?_, hR.len, ⟨?_, fun i hi => ?_⟩, hg.owns, ?_, ?_⟩, hwl, by omega⟩
  · rw [AfterCall.place hg.after hR.tag] at hi
    have hb : b = P.buf := by rw [← hR.place]; exact hi.1
    rw [hstk b i (by rw [hb]; exact hR.buf) (by rw [hb]; exact hR.ne)]
    exact hR.readable b i hi
  · have := hR.buf
    rcases hg.which with ⟨-, -, e⟩ | ⟨-, -, e, -⟩ <;> omega
  · rw [hsize _ hR.buf]; exact hR.reads.1
  · rw [hcell _ _ hR.buf]; exact hR.reads.2 i hi
  · omega
  · exact hg.apart hR.owns hR.buf hR.ne

/-- What a function that appends has done. -/
abbrev AppOk (s : State) (P : Ptr) (n t : Nat) (v w w' : RVec) (s' : State) : Prop := Grown s s' P n t v w ∧ w' = { w with buf := s'.home w.buf }

/-- The end of `encode_append_vec`. -/
theorem append_enc {mk : Ptr → Nat → BProg Ptr} (hmk : IsRaw mk) {K : Ptr → Ptr → Prog Unit} (Pl : Plat) (extra : Nat) (hR : Ready s p P n xs v)
    (hG : ∀ M Q, Reads M P xs → Writable M Q m → NoOverlap P n Q m → Good2 K P n Q m M)
    (hF : ∀ ρ a b o, RenE ρ (K ⟨a, P.off⟩ ⟨b, o⟩) (K ⟨ρ a, P.off⟩ ⟨ρ b, o⟩)) (hu : ∀ a b : Ptr, Uses' (· = a.buf) (· = b.buf) (K a b))
    (hsafe : (RVec.reserve_exact Pl extra { v with buf := s.home v.buf } m >>= fun buf => padd ⟨buf.buf, 0⟩ buf.len >>= fun _ => K P ⟨buf.buf, buf.len⟩ >>= fun _ => liftO (Pl.addU buf.len m) >>= fun k => buf.set_len k).run s.mem ≠ .ub)
    (hne : ∀ m', (RVec.reserve_exact Pl extra { v with buf := s.home v.buf } m >>= fun buf => padd ⟨buf.buf, 0⟩ buf.len >>= fun _ => K P ⟨buf.buf, buf.len⟩ >>= fun _ => liftO (Pl.addU buf.len m) >>= fun k => buf.set_len k).run s.mem ≠ .err m') :
    Sim ((reserve_exact Pl extra v m >>= fun buf => mk p n >>= fun r => prog (padd ⟨buf.buf, 0⟩ buf.len) >>= fun _ => prog (K r ⟨buf.buf, buf.len⟩) >>= fun _ => prog (liftO (Pl.addU buf.len m)) >>= fun k => set_len buf k) s)
      ((RVec.reserve_exact Pl extra { v with buf := s.home v.buf } m >>= fun buf => padd ⟨buf.buf, 0⟩ buf.len >>= fun _ => K P ⟨buf.buf, buf.len⟩ >>= fun _ => liftO (Pl.addU buf.len m) >>= fun k => buf.set_len k).run s.mem)
      (AppOk s P n p.buf v) (fun _ => False) := by
  refine grow_sim Pl extra hR hsafe fun w s2 hrun hW => ?_
  have hsafe := Prog.safe_next hsafe hrun
  have hne := Prog.noerr_next hne hrun
  refine raw_sim (q := ⟨w.buf, w.len⟩) (Q := ⟨s2.home w.buf, w.len⟩) hmk hW.ready.sound hW.ready.readable hW.mutable hW.grown.owns.tag hW.ready.place rfl hW.noOverlap (hG _ _ hW.ready.reads hW.writable hW.noOverlap)
    (fun ρ a b => hF ρ a b _) hu fun r s3 hm3 hh hK => ?_
  have eW : s3.home w.buf = s2.home w.buf := hh _ hW.grown.owns.tag
  rw [← hm3] at hsafe hne ⊢
  have hpad := Prog.safe_head hsafe
  have hp : Sim (prog (padd ⟨w.buf, 0⟩ w.len) s3) ((padd ⟨s2.home w.buf, 0⟩ w.len).run s3.mem) (fun _ _ s' => s' = s3) (fun _ => False) := by
    rw [← eW] at hpad ⊢
    exact Sim.padd (p := ⟨w.buf, 0⟩) hpad
  refine Sim.bind hp ?_
  rintro _ _ _ hrun rfl
  have hsafe := Prog.safe_next hsafe hrun
  have hne := Prog.noerr_next hne hrun
  refine Sim.bind (hK.noErr (Prog.noerr_head hne)) ?_
  rintro _ _ s4 hrun ⟨rfl, hf⟩
  have hsafe := Prog.safe_next hsafe hrun
  refine Sim.bind (Sim.liftO _) ?_
  rintro k _ _ hrun ⟨rfl, rfl, -⟩
  have hsafe := Prog.safe_next hsafe hrun
  have eW4 : _ = s2.home w.buf := hf.after.home _ hW.grown.owns.tag
  refine (set_len_sim eW4 hsafe).mono ?_ fun _ h => h
  rintro _ _ _ ⟨rfl, rfl, rfl⟩
  exact ⟨(hW.step hR hf).setLen _, by rw [← eW4]⟩

abbrev AppRes (s : State) (P : Ptr) (n t : Nat) (v : RVec) (w w' : RVec × Except Unit Unit) (s' : State) : Prop := AppOk s P n t v w.1 w'.1 s' ∧ w.2 = w'.2

/-- The end of `decode_append_vec`, after the pointers have been made. -/
theorem dec_end {x : Prog Unit} {K : Prog Unit} {C : Option Unit → BProg (RVec × Except Unit Unit)} {c : Option Unit → Prog (RVec × Except Unit Unit)} (Pl : Plat) (hR : Ready s p P n xs v)
    (hW : Room s s2 p P n xs v w m) (hC0 : C none = pure (w, .error ())) (hC1 : C (some ()) = prog (liftO (Pl.addU w.len m)) >>= fun k => set_len w k >>= fun b => pure (b, .ok ()))
    (hc0 : c none = pure ({ w with buf := s2.home w.buf }, .error ()))
    (hc1 : c (some ()) = liftO (Pl.addU w.len m) >>= fun k => RVec.set_len { w with buf := s2.home w.buf } k >>= fun b => pure (b, .ok ()))
    (hK : Sim (prog x s3) (K.run s3.mem) (fun v v' s' => v = v' ∧ Filled s2 s' P n p.buf ⟨s2.home w.buf, w.len⟩ m w.buf) (fun s' => Filled s2 s' P n p.buf ⟨s2.home w.buf, w.len⟩ m w.buf))
    (hsafe : (K.attempt >>= c).run s3.mem ≠ .ub) :
    Sim ((attempt (prog x) >>= C) s3) ((K.attempt >>= c).run s3.mem) (AppRes s P n p.buf v) (fun _ => False) := by
  refine Sim.bind (Sim.attempt hK) ?_
  rintro a b s4 hrun (⟨_, _, rfl, rfl, ⟨rfl, hf⟩, -⟩ | ⟨rfl, rfl, hf, -⟩)
  · have hsafe := Prog.safe_next hsafe hrun
    rw [hc1] at hsafe
    show Sim (C (some ()) s4) ((c (some ())).run s4.mem) _ _
    rw [hC1, hc1]
    refine Sim.bind (Sim.liftO _) ?_
    rintro k _ _ hrun ⟨rfl, rfl, -⟩
    have hsafe := Prog.safe_next hsafe hrun
    have eW4 : _ = s2.home w.buf := hf.after.home _ hW.grown.owns.tag
    refine Sim.bind (set_len_sim eW4 (Prog.safe_head hsafe)) ?_
    rintro _ _ _ - ⟨rfl, rfl, rfl⟩
    exact ⟨rfl, ⟨(hW.step hR hf).setLen _, by rw [← eW4]⟩, rfl⟩
  · rw [hC0, hc0]
    have eW4 : s4.home w.buf = s2.home w.buf := hf.after.home _ hW.grown.owns.tag
    exact ⟨rfl, ⟨hW.step hR hf, by rw [← eW4]⟩, rfl⟩

/-- The end of `decode_append_vec` of hex-simd. -/
theorem append_decA {mk : Ptr → Nat → BProg Ptr} (hmk : IsRaw mk) {K : Ptr → Ptr → Prog Unit} {C : RVec → Option Unit → BProg (RVec × Except Unit Unit)} {c : RVec → Option Unit → Prog (RVec × Except Unit Unit)}
    (Pl : Plat) (extra : Nat) (hR : Ready s p P n xs v)
    (hC0 : ∀ w, C w none = pure (w, .error ())) (hC1 : ∀ w : RVec, C w (some ()) = prog (liftO (Pl.addU w.len m)) >>= fun k => set_len w k >>= fun b => pure (b, .ok ()))
    (hc0 : ∀ w, c w none = pure (w, .error ())) (hc1 : ∀ w : RVec, c w (some ()) = liftO (Pl.addU w.len m) >>= fun k => RVec.set_len w k >>= fun b => pure (b, .ok ()))
    (hG : ∀ M Q, Reads M P xs → Writable M Q m → NoOverlap P n Q m → Good2 K P n Q m M)
    (hF : ∀ ρ a b o, RenE ρ (K ⟨a, P.off⟩ ⟨b, o⟩) (K ⟨ρ a, P.off⟩ ⟨ρ b, o⟩)) (hu : ∀ a b : Ptr, Uses' (· = a.buf) (· = b.buf) (K a b))
    (hsafe : (RVec.reserve_exact Pl extra { v with buf := s.home v.buf } m >>= fun buf => padd ⟨buf.buf, 0⟩ buf.len >>= fun _ => (K P ⟨buf.buf, buf.len⟩).attempt >>= c buf).run s.mem ≠ .ub) :
    Sim ((reserve_exact Pl extra v m >>= fun buf => mk p n >>= fun r => prog (padd ⟨buf.buf, 0⟩ buf.len) >>= fun _ => attempt (prog (K r ⟨buf.buf, buf.len⟩)) >>= C buf) s)
      ((RVec.reserve_exact Pl extra { v with buf := s.home v.buf } m >>= fun buf => padd ⟨buf.buf, 0⟩ buf.len >>= fun _ => (K P ⟨buf.buf, buf.len⟩).attempt >>= c buf).run s.mem)
      (AppRes s P n p.buf v) (fun _ => False) := by
  refine grow_sim Pl extra hR hsafe fun w s2 hrun hW => ?_
  have hsafe := Prog.safe_next hsafe hrun
  refine raw_sim (q := ⟨w.buf, w.len⟩) (Q := ⟨s2.home w.buf, w.len⟩) hmk hW.ready.sound hW.ready.readable hW.mutable hW.grown.owns.tag hW.ready.place rfl hW.noOverlap (hG _ _ hW.ready.reads hW.writable hW.noOverlap)
    (fun ρ a b => hF ρ a b _) hu fun r s3 hm3 hh hK => ?_
  have eW : s3.home w.buf = s2.home w.buf := hh _ hW.grown.owns.tag
  rw [← hm3] at hsafe ⊢
  have hpad := Prog.safe_head hsafe
  have hp : Sim (prog (padd ⟨w.buf, 0⟩ w.len) s3) ((padd ⟨s2.home w.buf, 0⟩ w.len).run s3.mem) (fun _ _ s' => s' = s3) (fun _ => False) := by
    rw [← eW] at hpad ⊢
    exact Sim.padd (p := ⟨w.buf, 0⟩) hpad
  refine Sim.bind hp ?_
  rintro _ _ _ hrun rfl
  have hsafe := Prog.safe_next hsafe hrun
  exact dec_end Pl hR hW (hC0 w) (hC1 w) (hc0 _) (hc1 _) hK hsafe

/-- The end of `decode_append_vec` of base64-simd and base32-simd. -/
theorem append_decB {mk : Ptr → Nat → BProg Ptr} (hmk : IsRaw mk) {K : Ptr → Ptr → Prog Unit} {C : RVec → Option Unit → BProg (RVec × Except Unit Unit)} {c : RVec → Option Unit → Prog (RVec × Except Unit Unit)}
    (Pl : Plat) (extra : Nat) (hR : Ready s p P n xs v)
    (hC0 : ∀ w, C w none = pure (w, .error ())) (hC1 : ∀ w : RVec, C w (some ()) = prog (liftO (Pl.addU w.len m)) >>= fun k => set_len w k >>= fun b => pure (b, .ok ()))
    (hc0 : ∀ w, c w none = pure (w, .error ())) (hc1 : ∀ w : RVec, c w (some ()) = liftO (Pl.addU w.len m) >>= fun k => RVec.set_len w k >>= fun b => pure (b, .ok ()))
    (hG : ∀ M Q, Reads M P xs → Writable M Q m → NoOverlap P n Q m → Good2 K P n Q m M)
    (hF : ∀ ρ a b o, RenE ρ (K ⟨a, P.off⟩ ⟨b, o⟩) (K ⟨ρ a, P.off⟩ ⟨ρ b, o⟩)) (hu : ∀ a b : Ptr, Uses' (· = a.buf) (· = b.buf) (K a b))
    (hsafe : (RVec.reserve_exact Pl extra { v with buf := s.home v.buf } m >>= fun buf => padd ⟨buf.buf, 0⟩ buf.len >>= fun _ => (K P ⟨buf.buf, buf.len⟩).attempt >>= c buf).run s.mem ≠ .ub) :
    Sim ((reserve_exact Pl extra v m >>= fun buf => prog (padd ⟨buf.buf, 0⟩ buf.len) >>= fun _ => mk p n >>= fun r => attempt (prog (K r ⟨buf.buf, buf.len⟩)) >>= C buf) s)
      ((RVec.reserve_exact Pl extra { v with buf := s.home v.buf } m >>= fun buf => padd ⟨buf.buf, 0⟩ buf.len >>= fun _ => (K P ⟨buf.buf, buf.len⟩).attempt >>= c buf).run s.mem)
      (AppRes s P n p.buf v) (fun _ => False) := by
  refine grow_sim Pl extra hR hsafe fun w s2 hrun hW => ?_
  have hsafe := Prog.safe_next hsafe hrun
  refine Sim.bind (Sim.padd (p := ⟨w.buf, 0⟩) (Prog.safe_head hsafe)) ?_
  rintro _ _ _ hrun rfl
  have hsafe := Prog.safe_next hsafe hrun
  refine raw_sim (q := ⟨w.buf, w.len⟩) hmk hW.ready.sound hW.ready.readable hW.mutable hW.grown.owns.tag hW.ready.place rfl hW.noOverlap (hG _ _ hW.ready.reads hW.writable hW.noOverlap)
    (fun ρ a b => hF ρ a b _) hu fun r s3 hm3 hh hK => ?_
  rw [← hm3] at hsafe ⊢
  exact dec_end Pl hR hW (hC0 w) (hC1 w) (hc0 _) (hc1 _) hK hsafe

/-! ### Calls -/

theorem Grown.earlier (hm : s1.mem = s.mem) (h0 : AfterCall s s1 (G0 P n t)) (hv : Owns s ⟨v.buf, 0⟩ v.cap) (h : Grown s1 s2 P n t v w) : Grown s s2 P n t v w := by
  have e : s1.home v.buf = s.home v.buf := h0.home _ hv.tag
  have e' : GA s1 P n t v w.buf = GA s P n t v w.buf := by
    funext b i
    unfold GA over vloan
    rw [hm, e]
  refine ⟨(h0.weaken fun b i => ?_).trans (e' ▸ h.after), h.owns, ?_⟩
  · by_cases hi : In P n b i
    · exact .inr ((over_in hi).trans (over_in hi).symm)
    · exact .inl (over_out hi)
  · rcases h.which with ⟨h1, h2, h3⟩ | ⟨h1, h2, h3, h4⟩
    · exact .inl ⟨h1, h2, by rw [h3, hm]⟩
    · exact .inr ⟨Nat.le_trans h0.next h1, by rw [h2, hm], by rw [h3, hm], e ▸ h4⟩

/-- A function that is lent a source and appends to a vector. -/
theorem append_call {body : Ptr → BProg α} {y : Prog β} {W : α → RVec} {F : State → α → β → Prop} (hF : ∀ s a b, F s a b → F s.ret a b) (hR : Ready s p P n xs v)
    (hb : ∀ s1 p1, s1.mem = s.mem → s1.home v.buf = s.home v.buf → Ready s1 p1 P n xs v →
      Sim (body p1 s1) (y.run s1.mem) (fun r r' s' => Grown s1 s' P n p1.buf v (W r) ∧ F s' r r') (fun _ => False)) :
    Sim (call (arg .shared p n >>= body) s) (y.run s.mem) (fun r r' s' => Grown s s' P n p.buf v (W r) ∧ F s' r r') (fun _ => False) := by
  obtain ⟨hs, hr, hp, rfl, hP, hl, hx, hO, hle, hne⟩ := hR
  refine call_run (k := .shared) (E := fun _ => False) (.inr rfl) hs hr fun s1 hm1 hs1 h => ?_
  have hn : s1.next = s.next + 1 := h.next
  have hhome : s1.home v.buf = s.home v.buf := h.home_old (Nat.lt_of_lt_of_le hO.tag (Nat.le_refl _))
  have hstk : ∀ i, s1.stack (s.home v.buf) i = s.stack (s.home v.buf) i := fun i => h.outside _ i fun hi => hne hi.1.symm
  have hO1 : Owns s1 ⟨v.buf, 0⟩ v.cap := by
    refine ⟨by have := hO.tag; omega, rfl, ?_, ?_, fun b i hi => ?_, fun i hi => ?_⟩
    · show s1.home v.buf < _
      rw [hhome, hm1]; exact hO.exists_
    · show s1.mem.size (s1.home v.buf) = _
      rw [hhome, hm1]; exact hO.size
    · have hi' : In (place s ⟨v.buf, 0⟩) v.cap b i := ⟨hi.1.trans hhome, hi.2⟩
      have hb : b = s.home v.buf := hi'.1
      rw [hb, hstk, ← hb]
      exact hO.mutable b i hi'
    · show ∀ it ∈ s1.stack (s1.home v.buf) i, _
      rw [hhome, hstk]; exact hO.unprotected i hi
  have hr1 : Readable s1 ⟨s.next, p.off⟩ n := fun b i hi => by
    rw [h.place_new] at hi
    obtain ⟨rest, e, -⟩ := h.top_shared (.inl rfl) hi
    rw [e, Stack.read_new]; rfl
  have := hb s1 ⟨s.next, p.off⟩ hm1 hhome ⟨hs1, hr1, by show s.next < s1.next; omega, h.place_new, by rw [hm1]; exact hP, hl, by rw [hm1]; exact hx, hO1, hle, by rw [hhome]; exact hne⟩
  rw [hm1] at this
  refine this.mono ?_ fun _ h => h
  rintro r r' s2 ⟨hg, hf⟩
  have e' : ∀ u, vloan s1 v u = vloan s v u := fun u => by
    funext b i
    unfold vloan
    rw [hm1, hhome]
  refine ⟨⟨?_, Own.ret hg.owns, ?_⟩, hF _ _ _ hf⟩
  · have h2 := hg.after
    rw [show GA s1 (place s p) n s.next v (W r).buf = GA s (place s p) n s.next v (W r).buf by unfold GA; rw [e']] at h2
    exact call_after (k := .shared) (.inr rfl) hs h h2
  · rcases hg.which with ⟨h1, h2, h3⟩ | ⟨h1, h2, h3, h4⟩
    · exact .inl ⟨h1, h2, h3.trans (by rw [hm1])⟩
    · exact .inr ⟨by omega, h2.trans (by rw [hm1]), h3.trans (by rw [hm1]), Freed.ret (hhome ▸ h4)⟩

end Simd.Borrow
