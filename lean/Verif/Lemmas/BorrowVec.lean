import Verif.Lemmas.BorrowBoxes
/-
Vectors with borrow stacks.
-/
namespace Simd.Borrow
open Spec

variable {α β γ δ : Type} {s s1 s2 s3 : State} {p q P Q : Ptr} {n m d t u N : Nat} {G : Nat → Nat → Loan} {v w : RVec} {xs : List Byte}

theorem Stack.read_prot {t : Nat} {st r : Stack} (h : st.read t = some r) (hp : ∀ it ∈ st, it.prot = none) : ∀ it ∈ r, it.prot = none := by
  induction st generalizing r with
  | nil => cases h
  | cons it st ih =>
    have ih := fun {r} (h : Stack.read t st = some r) => ih h fun it hi => hp it (.tail _ hi)
    rw [Stack.read] at h
    split at h
    · cases h; exact hp
    · split at h
      · split at h
        · cases h
        · obtain ⟨r', h1, rfl⟩ := Option.map_eq_some_iff.1 h
          intro x hx
          cases hx with
          | head => exact hp it (.head _)
          | tail _ hx => exact ih h1 x hx
      · obtain ⟨r', h1, rfl⟩ := Option.map_eq_some_iff.1 h
        intro x hx
        cases hx with
        | head => exact hp it (.head _)
        | tail _ hx => exact ih h1 x hx

/-! ### Owners -/

namespace Own

theorem in_iff (h : Owns s p n) {b i : Nat} : In (place s p) n b i ↔ b = s.home p.buf ∧ i < n := by
  show (b = s.home p.buf ∧ p.off ≤ i ∧ i < p.off + n) ↔ _
  rw [h.start]; omega

/-- An owner is still one after what was done with it. -/
theorem after (h : Owns s p n) (h' : AfterCall s s1 G) (hG : ∀ i, i < n → G (s.home p.buf) i = .none ∨ G (s.home p.buf) i = .excl p.buf) (hn : s.mem.nbuf ≤ s1.mem.nbuf)
    (hz : s1.mem.size (s.home p.buf) = s.mem.size (s.home p.buf)) : Owns s1 p n := by
  have eh := h'.home _ h.tag
  refine ⟨Nat.lt_of_lt_of_le h.tag h'.next, h.start, by rw [eh]; exact Nat.lt_of_lt_of_le h.exists_ hn, by rw [eh, hz]; exact h.size, h'.mutable h.tag (fun b i hi => ?_) h.mutable, fun i hi it hit => ?_⟩
  · obtain ⟨rfl, hi'⟩ := (in_iff h).1 hi
    exact hG i hi'
  · rw [eh] at hit
    rcases h'.stack (s.home p.buf) i with e | e
    · rw [e] at hit; exact h.unprotected i hi it hit
    · rcases hG i hi with e' | e' <;> rw [e'] at e
      · exact e.elim
      · obtain ⟨w, new, h1, h2, h3⟩ := e
        rw [h2] at hit
        rcases List.mem_append.1 hit with hit | hit
        · exact (h3 it hit).2.2
        · obtain ⟨a, e⟩ := Stack.write_suffix h1
          exact h.unprotected i hi it (by rw [e]; exact List.mem_append_right _ hit)

theorem ret (h : Owns s p n) : Owns s.ret p n := by
  refine ⟨h.tag, h.start, h.exists_, h.size, Mutable.ret h.mutable, fun i hi it hit => ?_⟩
  obtain ⟨it', h1, rfl⟩ := List.mem_map.1 (show it ∈ (s.stack (s.home p.buf) i).map (Item.release s.frame) from hit)
  have := h.unprotected i hi it' h1
  unfold Item.release
  rw [this, if_neg (by nofun)]; exact this

end Own

/-! ### What a function has been lent that appends to a vector -/

/-- The vector, and new allocations; `u` is the tag of the owner afterwards. -/
def vloan (s : State) (v : RVec) (u b i : Nat) : Loan :=
  if s.mem.nbuf ≤ b then .own else if b = s.home v.buf ∧ i < v.cap then (if u = v.buf then .excl u else .own) else .none

abbrev GA (s : State) (P : Ptr) (n t : Nat) (v : RVec) (u : Nat) : Nat → Nat → Loan := over P n (.shared t) (vloan s v u)

/-- `w` is what became of the vector `v`. -/
structure Grown (s s' : State) (P : Ptr) (n t : Nat) (v w : RVec) : Prop where
  after : AfterCall s s' (GA s P n t v w.buf)
  owns : Owns s' ⟨w.buf, 0⟩ w.cap
  which : (w.buf = v.buf ∧ w.cap = v.cap ∧ s'.mem.nbuf = s.mem.nbuf) ∨ s.next ≤ w.buf ∧ s'.home w.buf = s.mem.nbuf ∧ s'.mem.nbuf = s.mem.nbuf + 1 ∧ Freed s' (s.home v.buf)

theorem Grown.refl (h : Owns s ⟨v.buf, 0⟩ v.cap) : Grown s s P n t v v := ⟨AfterCall.refl _ _, h, .inl ⟨rfl, rfl, rfl⟩⟩

theorem Grown.setLen (h : Grown s s1 P n t v w) (k : Nat) : Grown s s1 P n t v { w with len := k } := ⟨h.after, h.owns, h.which⟩

/-- Where the vector is. -/
theorem Grown.home (h : Grown s s1 P n t v w) (hv : Owns s ⟨v.buf, 0⟩ v.cap) : s1.home w.buf = s.home v.buf ∧ w.buf = v.buf ∨ s1.home w.buf = s.mem.nbuf ∧ s.next ≤ w.buf := by
  rcases h.which with ⟨e, -⟩ | ⟨h1, h2, -⟩
  · exact .inl ⟨by rw [e]; exact h.after.home _ hv.tag, e⟩
  · exact .inr ⟨h2, h1⟩

theorem Grown.apart (h : Grown s s1 P n t v w) (hv : Owns s ⟨v.buf, 0⟩ v.cap) (hP : P.buf < s.mem.nbuf) (hne : P.buf ≠ s.home v.buf) : P.buf ≠ s1.home w.buf := by
  rcases h.home hv with ⟨e, -⟩ | ⟨e, -⟩ <;> rw [e]
  · exact hne
  · omega

/-- The source has been read, and the vector written. -/
theorem Grown.step (hs : Sound s) (h : Grown s s1 P n t v w) (hv : Owns s ⟨v.buf, 0⟩ v.cap) (hP : P.buf < s.mem.nbuf) (hne : P.buf ≠ s.home v.buf) {o : Nat} (hd : o + d ≤ w.cap)
    (h' : Filled s1 s2 P n t ⟨s1.home w.buf, o⟩ d w.buf) : Grown s s2 P n t v w := by
  have hap := h.apart hv hP hne
  have hsz := h.owns.size
  have hG : ∀ b i, b ≠ P.buf → b ≠ s1.home w.buf → G2 P n t ⟨s1.home w.buf, o⟩ d w.buf b i = .none := fun b i h1 h2 => (over_out fun h => h1 h.1).trans (over_out fun h => h2 h.1)
  refine ⟨h.after.push hs h'.after fun b i => ?_, Own.after h.owns h'.after (fun i _ => ?_) (Nat.le_of_eq h'.nbuf.symm) (by rw [h'.size]), ?_⟩
  · by_cases h1 : In P n b i
    · exact .inr (.inl ((over_in h1).trans (over_in h1).symm))
    · rw [show GA s P n t v w.buf b i = _ from over_out h1, show G2 P n t ⟨s1.home w.buf, o⟩ d w.buf b i = _ from over_out h1]
      by_cases h2 : In ⟨s1.home w.buf, o⟩ d b i
      · rw [over_in h2]
        obtain ⟨rfl, -, h4⟩ := h2
        dsimp only at h4
        unfold vloan
        dsimp only
        rcases h.which with ⟨e, ec, -⟩ | ⟨e1, e2, -⟩
        · have eh : s1.home w.buf = s.home v.buf := by rw [e]; exact h.after.home _ hv.tag
          rw [eh, if_neg (by have := hv.exists_; dsimp only at this; omega), if_pos ⟨rfl, by omega⟩, if_pos e]
          exact .inr (.inl rfl)
        · rw [e2, if_pos (Nat.le_refl _)]
          exact .inr (.inr (.inr (.inr ⟨_, rfl, rfl, e1⟩)))
      · rw [over_out h2]; exact .inl rfl
  · dsimp only
    by_cases h2 : In ⟨s1.home w.buf, o⟩ d (s1.home w.buf) i
    · exact .inr ((over_out fun h => hap h.1.symm).trans (over_in h2))
    · exact .inl ((over_out fun h => hap h.1.symm).trans (over_out h2))
  · rcases h.which with ⟨e, e'⟩ | ⟨e1, e2, e3, e4⟩
    · exact .inl ⟨e, e'.1, h'.nbuf.trans e'.2⟩
    · refine .inr ⟨e1, (h'.after.home _ h.owns.tag).trans e2, h'.nbuf.trans e3, fun i hi => ?_⟩
      rw [h'.size] at hi
      rw [h'.after.same (hG _ i (Ne.symm hne) (by rw [e2]; have := hv.exists_; dsimp only at this; omega))]
      exact e4 i hi

/-! ### Growing -/

theorem load_sim {k : Nat} (hr : Readable s p k) (hu : (loadBytes (place s p) k).run s.mem ≠ .ub) {E : State → Prop} :
    Sim (prog (loadBytes p k) s) ((loadBytes (place s p) k).run s.mem) (fun bs bs' s' => bs = bs' ∧ bs.length = k ∧ ∃ S, s' = { s with stack := S } ∧
      (∀ b i, In (place s p) k b i → (s.stack b i).read p.buf = some (S b i)) ∧ ∀ b i, ¬ In (place s p) k b i → S b i = s.stack b i) E := by
  obtain ⟨S, h1, h2, h3⟩ := touch_ok (s := s) (f := Stack.read p.buf) (p := p) (n := k) hr
  have e : (loadBytes (place s p) k).run s.mem = match s.mem.read (place s p) k with | some bs => .ok bs s.mem | none => .ub := by
    unfold loadBytes Prog.run
    cases s.mem.read (place s p) k <;> rfl
  have e' : prog (loadBytes p k) s = match s.touch (Stack.read p.buf) p k, s.mem.read (place s p) k with | some st, some bs => .ok bs { s with stack := st } | _, _ => .ub := by
    unfold loadBytes
    rw [prog]
    show (match s.touch (Stack.read p.buf) p k, s.mem.read (place s p) k with | some st, some bs => _ | _, _ => _) = _
    cases s.touch (Stack.read p.buf) p k <;> cases s.mem.read (place s p) k <;> rfl
  rw [e] at hu
  rw [e, e', h1]
  cases hm : s.mem.read (place s p) k with
  | none => rw [hm] at hu; exact absurd rfl hu
  | some bs => exact ⟨rfl, rfl, read_length hm, S, rfl, h2, h3⟩

theorem store_sim {bs : List Byte} (hm : Mutable s p bs.length) (hb : p.off + bs.length ≤ s.mem.size (s.home p.buf)) {E : State → Prop} :
    Sim (prog (storeBytes p bs) s) ((storeBytes (place s p) bs).run s.mem) (fun _ _ s' => ∃ S, s' = { s with stack := S, mem := s.mem.write (place s p) bs } ∧
      (∀ b i, In (place s p) bs.length b i → (s.stack b i).write p.buf = some (S b i)) ∧ ∀ b i, ¬ In (place s p) bs.length b i → S b i = s.stack b i) E := by
  obtain ⟨S, h1, h2, h3⟩ := touch_ok (s := s) (f := Stack.write p.buf) (p := p) (n := bs.length) hm
  have e : (storeBytes (place s p) bs).run s.mem = .ok () (s.mem.write (place s p) bs) := if_pos hb
  have e' : prog (storeBytes p bs) s = match s.touch (Stack.write p.buf) p bs.length with
      | some st => if p.off + bs.length ≤ s.mem.size (s.home p.buf) then .ok () { s with stack := st, mem := s.mem.write (place s p) bs } else .ub
      | none => .ub := rfl
  rw [e, e', h1]
  dsimp only
  rw [if_pos hb]
  exact ⟨rfl, S, rfl, h2, h3⟩

theorem reserve_sim (Pl : Plat) (extra : Nat) (hs : Sound s) (hO : Owns s ⟨v.buf, 0⟩ v.cap) (hl : v.len ≤ v.cap)
    (hu : (Simd.RVec.reserve_exact Pl extra { v with buf := s.home v.buf } m).run s.mem ≠ .ub) (hP : P.buf < s.mem.nbuf) (hne : P.buf ≠ s.home v.buf) {E : State → Prop} :
    Sim (reserve_exact Pl extra v m s) ((Simd.RVec.reserve_exact Pl extra { v with buf := s.home v.buf } m).run s.mem)
      (fun w w' s' => w.len = v.len ∧ v.len + m ≤ w.cap ∧ w' = { w with buf := s'.home w.buf } ∧ Grown s s' P n t v w ∧ (∀ b i, b < s.mem.nbuf → s'.mem.cell b i = s.mem.cell b i) ∧
        (∀ b, b < s.mem.nbuf → s'.mem.size b = s.mem.size b) ∧ ∀ b i, b < s.mem.nbuf → b ≠ s.home v.buf → s'.stack b i = s.stack b i) E := by
  unfold reserve_exact
  unfold RVec.reserve_exact at hu ⊢
  dsimp only at hu ⊢
  by_cases hc : m ≤ v.cap - v.len
  · rw [if_pos hc, if_pos hc]
    exact ⟨rfl, rfl, by omega, rfl, Grown.refl hO, fun _ _ _ => rfl, fun _ _ => rfl, fun _ _ _ _ => rfl⟩
  · rw [if_neg hc] at hu
    rw [if_neg hc, if_neg hc]
    by_cases hc' : v.len + m + extra ≤ Pl.isizeMax
    · rw [if_pos hc'] at hu
      rw [if_pos hc', if_pos hc']
      have hcap : s.mem.size (s.home v.buf) = v.cap := hO.size
      have hex : s.home v.buf < s.mem.nbuf := hO.exists_
      have hre : Readable s ⟨v.buf, 0⟩ v.len := fun b i hi => Stack.read_of_write (hO.mutable b i (in_mono hl hi))
      refine Sim.bind (load_sim hre (Prog.safe_head hu)) ?_
      rintro old _ _ hrun ⟨rfl, hlen, S, rfl, h2, h3⟩
      have hsa : Mutable { s with stack := S } ⟨v.buf, 0⟩ v.cap := fun b i hi => by
        by_cases hi' : In (place s ⟨v.buf, 0⟩) v.len b i
        · exact Stack.write_of_read (hO.mutable b i hi) (h2 b i hi')
        · show (Stack.write _ (S b i)).isSome
          rw [h3 b i hi']; exact hO.mutable b i hi
      have hpa : ∀ i, i < v.cap → ∀ it ∈ S (s.home v.buf) i, it.prot = none := fun i hi => by
        by_cases hi' : In (place s ⟨v.buf, 0⟩) v.len (s.home v.buf) i
        · exact Stack.read_prot (h2 _ i hi') (hO.unprotected i hi)
        · rw [h3 _ i hi']; exact hO.unprotected i hi
      generalize hL : v.len + m + extra = L
      let sb : State := State.allocated { s with stack := S } L
      show Sim ((prog (storeBytes ⟨s.next, 0⟩ old) >>= fun _ => drop_vec v >>= fun _ => pure (⟨s.next, v.len, L⟩ : RVec)) sb) ((storeBytes ⟨s.mem.nbuf, 0⟩ old >>= fun _ => pure (⟨s.mem.nbuf, v.len, L⟩ : RVec)).run sb.mem) _ _
      have ep : place sb ⟨s.next, 0⟩ = ⟨s.mem.nbuf, 0⟩ := (owner_alloc { s with stack := S } L).place_eq
      have hN := owner_alloc { s with stack := S } L
      have hst := store_sim (s := sb) (p := ⟨s.next, 0⟩) (bs := old) (E := E) (hN.mutable.mono (by omega)) (by
        show 0 + old.length ≤ sb.mem.size (sb.home s.next)
        rw [hN.home, hN.size]; omega)
      rw [ep] at hst
      refine Sim.bind hst ?_
      rintro _ _ _ - ⟨S2, rfl, h4, h5⟩
      have e2 : ∀ b i, S2 b i = sb.stack b i := fun b i => by
        by_cases hb : In ⟨s.mem.nbuf, 0⟩ old.length b i
        · obtain ⟨rest, e⟩ := onTop_alloc { s with stack := S } L old.length b i (by rw [show place (State.allocated { s with stack := S } L) ⟨s.next, 0⟩ = _ from ep]; exact hb)
          have := h4 b i hb
          rw [show sb.stack b i = _ from e, show Stack.write s.next (⟨.unique, s.next, none⟩ :: rest) = _ from Stack.write_top rfl (.inl rfl)] at this
          rw [show sb.stack b i = _ from e]
          exact (Option.some.inj this).symm
        · exact h5 b i hb
      obtain rfl : S2 = sb.stack := funext fun b => funext (e2 b)
      have hst : ∀ b i, b < s.mem.nbuf → sb.stack b i = S b i := fun b i hb => if_neg (by show b ≠ s.mem.nbuf; omega)
      have hhome : sb.home v.buf = s.home v.buf := if_neg (by have := hO.tag; dsimp only at this ⊢; omega)
      have hsize : ∀ b, b < s.mem.nbuf → sb.mem.size b = s.mem.size b := fun b hb => if_neg (by show b ≠ s.mem.nbuf; omega)
      generalize hM : sb.mem.write ⟨s.mem.nbuf, 0⟩ old = M
      have hMn : M.nbuf = s.mem.nbuf + 1 := by rw [← hM]; rfl
      have hMs : M.size = sb.mem.size := by rw [← hM]; rfl
      have hMc : ∀ b i, b < s.mem.nbuf → M.cell b i = s.mem.cell b i := fun b i hb => by
        rw [← hM]
        show (if b = s.mem.nbuf ∧ _ then _ else if b = s.mem.nbuf then none else s.mem.cell b i) = _
        rw [if_neg (by omega), if_neg (by omega)]
      have hOc : Owns { sb with mem := M } ⟨v.buf, 0⟩ v.cap := by
        refine ⟨Nat.lt_succ_of_lt hO.tag, rfl, ?_, ?_, fun b i hi => ?_, fun i hi => ?_⟩
        · show sb.home v.buf < M.nbuf
          rw [hhome, hMn]; omega
        · show M.size (sb.home v.buf) = v.cap
          rw [hhome, hMs, hsize _ hex]; exact hcap
        · have hi' : In (place s ⟨v.buf, 0⟩) v.cap b i := by
            obtain ⟨h, h'⟩ := hi
            exact ⟨h.trans hhome, h'⟩
          show (Stack.write v.buf (sb.stack b i)).isSome
          rw [hst b i (by rw [show b = s.home v.buf from hi'.1]; exact hex)]
          exact hsa b i hi'
        · show ∀ it ∈ sb.stack (sb.home v.buf) i, it.prot = none
          rw [hhome, hst _ _ hex]
          exact hpa i hi
      refine Sim.left (x := drop_vec v) (E' := fun _ => True) (drop_sim (s := { sb with mem := M }) rfl hOc) ?_
      rintro _ s4 hm4 ⟨g1, g2, g3, g4, g5⟩
      have g4' : ∀ i, i < v.cap → s4.stack (s.home v.buf) i = [] := fun i hi => g4 _ i ⟨hhome.symm, hi⟩
      have g5' : ∀ b i, ¬ (b = s.home v.buf ∧ i < v.cap) → s4.stack b i = sb.stack b i := fun b i hi => g5 b i fun h => hi ⟨h.1.trans hhome, h.2⟩
      have g1' : s4.next = s.next + 1 := g1
      have g3' : s4.home = sb.home := g3
      have hm4' : s4.mem = M := hm4
      have hvn : v.buf < s.next := hO.tag
      have hsame : ∀ b i, b ≠ s.mem.nbuf → ¬ (b = s.home v.buf ∧ i < v.cap) → s4.stack b i = s.stack b i := fun b i hb hi => by
        rw [g5' b i hi, show sb.stack b i = S b i from if_neg hb]
        refine h3 b i fun h => hi ⟨h.1, ?_⟩
        have : i < 0 + v.len := h.2.2
        omega
      have hnew : ∀ i, s4.stack s.mem.nbuf i = [⟨.unique, s.next, none⟩] := fun i => by
        rw [g5' _ i (by omega)]; exact if_pos rfl
      refine ⟨hm4, rfl, by show v.len + m ≤ L; omega, ?_, ⟨⟨by omega, g2, fun t ht => by rw [g3']; exact if_neg (by dsimp only; omega), fun b i => ?_⟩, ⟨?_, rfl, ?_, ?_, fun b i hi => ?_, fun i _ => ?_⟩,
        .inr ⟨Nat.le_refl _, ?_, by rw [hm4', hMn], fun i hi => ?_⟩⟩, fun b i hb => by rw [hm4']; exact hMc b i hb, fun b hb => by rw [hm4', hMs]; exact hsize b hb,
        fun b i hb hb' => hsame b i (by omega) fun h => hb' h.1⟩
      · rw [show s4.home = sb.home from g3']
        exact congrArg (fun b => (⟨b, v.len, L⟩ : RVec)) hN.home.symm
      · by_cases hb : b = s.mem.nbuf
        · refine .inr ?_
          rw [show GA s P n t v s.next b i = _ from over_out fun h => by have := h.1; omega, show vloan s v s.next b i = .own from if_pos (by omega), hb, hnew]
          intro it hi
          cases List.mem_singleton.1 hi
          exact ⟨Nat.le_refl _, by show s.next < s4.next; omega, rfl⟩
        · by_cases hi : b = s.home v.buf ∧ i < v.cap
          · refine .inr ?_
            rw [show GA s P n t v s.next b i = _ from over_out fun h => hne (h.1.symm.trans hi.1), show vloan s v s.next b i = .own by
              unfold vloan
              rw [if_neg (by rw [hi.1]; omega), if_pos hi, if_neg (by omega)], hi.1, g4' i hi.2]
            nofun
          · exact .inl (hsame b i hb hi)
      · show s.next < s4.next; omega
      · show s4.home s.next < _
        rw [g3', hm4', hMn, show sb.home s.next = _ from hN.home]; exact Nat.lt_succ_self _
      · show s4.mem.size (s4.home s.next) = L
        rw [g3', hm4', hMs, show sb.home s.next = _ from hN.home]; exact hN.size
      · have hb : b = s.mem.nbuf := by
          have := hi.1
          rw [this]
          show s4.home s.next = _
          rw [g3']; exact hN.home
        rw [hb, hnew, show Stack.write s.next (⟨.unique, s.next, none⟩ :: []) = _ from Stack.write_top rfl (.inl rfl)]; rfl
      · show ∀ it ∈ s4.stack (s4.home s.next) i, _
        rw [g3', show sb.home s.next = _ from hN.home, hnew]
        intro it hi
        cases List.mem_singleton.1 hi; rfl
      · rw [g3']; exact hN.home
      · rw [hm4', hMs, hsize _ hex, hcap] at hi
        exact g4' i hi
    · rw [if_neg hc', if_neg hc']; trivial

theorem set_len_sim {k : Nat} {V : Nat} (hV : s.home v.buf = V) (hu : (Simd.RVec.set_len { v with buf := V } k).run s.mem ≠ .ub) {E : State → Prop} :
    Sim (set_len v k s) ((Simd.RVec.set_len { v with buf := V } k).run s.mem) (fun w w' s' => s' = s ∧ w = { v with len := k } ∧ w' = { w with buf := V }) E := by
  subst hV
  unfold set_len
  unfold RVec.set_len at hu ⊢
  dsimp only at hu ⊢
  by_cases hc : k ≤ v.cap
  · rw [if_pos hc] at hu
    rw [if_pos hc, if_pos hc]
    have e : Prog.run (do let _ ← loadBytes ⟨s.home v.buf, 0⟩ k; pure { buf := s.home v.buf, len := k, cap := v.cap : RVec }) s.mem = match s.mem.read ⟨s.home v.buf, 0⟩ k with
        | some _ => .ok { buf := s.home v.buf, len := k, cap := v.cap } s.mem
        | none => .ub := by
      show (Prog.load _ _ _).run s.mem = _
      unfold Prog.run
      cases s.mem.read ⟨s.home v.buf, 0⟩ k <;> rfl
    rw [e] at hu ⊢
    show Sim (BProg.bind (inited ⟨v.buf, 0⟩ k) _ s) _ _ _
    unfold BProg.bind inited
    dsimp only
    cases hr : s.mem.read ⟨s.home v.buf, 0⟩ k with
    | none => rw [hr] at hu; exact absurd rfl hu
    | some bs => exact ⟨rfl, rfl, rfl, rfl⟩
  · rw [if_neg hc] at hu; exact absurd rfl hu

end Simd.Borrow
