import Verif.Lemmas.BorrowPar
/-
Threads with borrow stacks: rules for references, accesses and programs.
-/
namespace Simd.Borrow
open Spec

variable {g : Goal} {W W' X Y : Nat → Nat → Prop} {s s' s1 s2 : State} {p q P Q : Ptr} {n m : Nat}

/-- What a thread that has the bytes of `W` knows about the state. -/
structure Know (g : Goal) (W : Nat → Nat → Prop) (s : State) : Prop where
  next : g.next ≤ s.next
  frame : s.frame = g.frame
  size : s.mem.size = g.size
  source : ∀ b i, g.shared b i → s.mem.cell b i = g.source b i
  apart : ∀ b i, W b i → ¬ g.shared b i
  grown : ∀ b i, W b i → g.Grown s b i

theorem Know.rely (K : Know g W s) (h : Rely g W s s') : Know g W s' where
  next := Nat.le_trans K.next h.next
  frame := h.frame.trans K.frame
  size := h.size.trans K.size
  source := fun b i hb => (h.cell b i (.inr hb)).trans (K.source b i hb)
  apart := K.apart
  grown := fun b i hb => (K.grown b i hb).moves h (fun h => h hb) (K.apart b i hb)

theorem Know.sub (K : Know g W s) (h : ∀ b i, W' b i → W b i) : Know g W' s :=
  ⟨K.next, K.frame, K.size, K.source, fun b i hb => K.apart b i (h b i hb), fun b i hb => K.grown b i (h b i hb)⟩

/-- `p` points to the `n` shared bytes at `P` and may read them. -/
structure Src (g : Goal) (s : State) (p P : Ptr) (n : Nat) : Prop where
  lt : p.buf < s.next
  at_ : place s p = P
  read : ∀ b i, In P n b i → g.shared b i ∧ (s.stack b i).read p.buf = some (s.stack b i)

/-- `p` points to the `n` bytes at `P`, which are in `W`, and is on top of their stacks. -/
structure Dst (W : Nat → Nat → Prop) (s : State) (p P : Ptr) (n : Nat) : Prop where
  lt : p.buf < s.next
  at_ : place s p = P
  top : ∀ b i, In P n b i → W b i ∧ ∃ it rest, s.stack b i = it :: rest ∧ it.tag = p.buf ∧ (it.perm = .unique ∨ it.perm = .sharedRW)

theorem Src.off (h : Src g s p P n) : p.off = P.off := by rw [← h.at_]; rfl
theorem Dst.off (h : Dst W s p P n) : p.off = P.off := by rw [← h.at_]; rfl
theorem Src.home (h : Src g s p P n) : s.home p.buf = P.buf := by rw [← h.at_]; rfl
theorem Dst.home (h : Dst W s p P n) : s.home p.buf = P.buf := by rw [← h.at_]; rfl

theorem Src.moves (h : Src g s p P n) (hm : Moves g X s s') : Src g s' p P n where
  lt := Nat.lt_of_lt_of_le h.lt hm.next
  at_ := (hm.place h.lt).trans h.at_
  read := fun b i hb => by
    obtain ⟨h1, h2⟩ := h.read b i hb
    obtain ⟨new, e, hn⟩ := hm.readers b i h1
    exact ⟨h1, by rw [e]; exact Stack.read_append (fun it hi => (hn it hi).1) h2⟩

theorem Dst.moves (h : Dst W s p P n) (K : Know g W s) (hm : Moves g X s s') (hX : ∀ b i, In P n b i → ¬ X b i) : Dst W s' p P n where
  lt := Nat.lt_of_lt_of_le h.lt hm.next
  at_ := (hm.place h.lt).trans h.at_
  top := fun b i hb => by
    obtain ⟨h1, h2⟩ := h.top b i hb
    rw [hm.stack b i (hX b i hb) (K.apart b i h1)]
    exact ⟨h1, h2⟩

theorem Dst.rely (h : Dst W s p P n) (K : Know g W s) (hm : Rely g W s s') : Dst W s' p P n := h.moves K hm fun b i hb h' => h' (h.top b i hb).1

theorem in_add {k b i : Nat} (hk : k ≤ n) (h : In (P.add k) (n - k) b i) : In P n b i := by
  obtain ⟨h1, h2, h3⟩ := h
  simp only [Ptr.add] at h1 h2 h3
  exact ⟨h1, by omega, by omega⟩

theorem place_add (s : State) (p : Ptr) (k : Nat) : place s (p.add k) = (place s p).add k := rfl

theorem Src.take (h : Src g s p P n) {k : Nat} (hk : k ≤ n) : Src g s p P k := ⟨h.lt, h.at_, fun b i hb => h.read b i (in_mono hk hb)⟩
theorem Src.drop (h : Src g s p P n) {k : Nat} (hk : k ≤ n) : Src g s (p.add k) (P.add k) (n - k) :=
  ⟨h.lt, by rw [place_add, h.at_], fun b i hb => h.read b i (in_add hk hb)⟩
theorem Dst.take (h : Dst W s p P n) {k : Nat} (hk : k ≤ n) : Dst W s p P k := ⟨h.lt, h.at_, fun b i hb => h.top b i (in_mono hk hb)⟩
theorem Dst.drop (h : Dst W s p P n) {k : Nat} (hk : k ≤ n) : Dst W s (p.add k) (P.add k) (n - k) :=
  ⟨h.lt, by rw [place_add, h.at_], fun b i hb => h.top b i (in_add hk hb)⟩
theorem Dst.sub (h : Dst W s p P n) (hW : ∀ b i, In P n b i → W' b i) : Dst W' s p P n := ⟨h.lt, h.at_, fun b i hb => ⟨hW b i hb, (h.top b i hb).2⟩⟩

/-! ### References -/

theorem retag_ok {prot : Option Nat} {k : Kind} (h : ∀ b i, In (place s p) n b i → (k.apply p.buf s.next prot (s.stack b i)).isSome) :
    ∃ s', retagWith prot k p n s = .ok ⟨s.next, p.off⟩ s' ∧ s'.mem = s.mem ∧ Retagged s s' prot k p n := by
  have := retag_sim h (E := fun _ => False)
  cases e : retagWith prot k p n s with
  | ok r s' => rw [e] at this; obtain ⟨h1, rfl, h2⟩ := this; exact ⟨s', rfl, h1, h2⟩
  | err s' => rw [e] at this; exact this.elim
  | panic => rw [e] at this; exact this.elim
  | ub => rw [e] at this; exact this.elim

theorem prot_frame {b : Bool} (K : Know g W s) : (if b then some s.frame else none) = none ∨ (if b then some s.frame else none) = some g.frame := by
  cases b
  · exact .inl rfl
  · exact .inr (by rw [if_pos rfl, K.frame])

theorem keeps_shared {prot : Bool} {kind : Kind} {k : Ptr → Act} (hk : kind = .shared ∨ kind = .rawConst) (K : Know g W s) (h : Src g s p P n)
    (hn : ∀ s' q, Know g W s' → Rely g W s s' → Src g s' q P n → s.next ≤ q.buf → Keeps g W (k q) s') : Keeps g W (.retag prot kind p n k) s := by
  refine .mk rfl fun s1 hs => ?_
  have K1 := K.rely hs
  have h1 := h.moves hs
  obtain ⟨s2, e, em, hR⟩ := retag_ok (s := s1) (p := p) (n := n) (k := kind) (prot := if prot then some s1.frame else none) fun b i hb => by
    rw [h1.at_] at hb
    rcases hk with rfl | rfl <;> rw [Kind.apply, (h1.read b i hb).2] <;> rfl
  have hst : ∀ b i, In P n b i → s2.stack b i = ⟨.sharedRO, s1.next, if prot then some s1.frame else none⟩ :: s1.stack b i := fun b i hb => by
    obtain ⟨rest, e1, e2⟩ := hR.top_shared hk (by rw [h1.at_]; exact hb)
    rw [(h1.read b i hb).2] at e2
    rw [e1]; cases e2; rfl
  have hm : ∀ X, Moves g X s1 s2 := fun X => by
    refine ⟨by rw [hR.next]; omega, hR.frame, fun t ht => hR.home_old ht, by rw [em], by rw [em], fun b i _ => by rw [em], fun b i _ hr => ?_, fun b i hr => ?_⟩
    · refine hR.outside b i fun hb => hr (h1.read b i ?_).1
      rw [h1.at_] at hb; exact hb
    · by_cases hb : In P n b i
      · refine ⟨[_], hst b i hb, fun it hi => ?_⟩
        cases List.mem_singleton.1 hi
        refine ⟨rfl, Nat.le_refl _, by rw [hR.next]; exact Nat.lt_succ_self _, ?_⟩
        cases prot
        · exact .inl rfl
        · exact .inr rfl
      · exact ⟨[], hR.outside b i (by rw [h1.at_]; exact hb), nofun⟩
  refine ⟨_, s2, by simp only [Act.step, e], hm W, ?_, ?_, hn s2 _ (K1.rely (hm _)) (hs.trans (hm _)) ⟨by rw [hR.next]; exact Nat.lt_succ_self _, hR.place_new.trans h1.at_, fun b i hb =>
    ⟨(h1.read b i hb).1, by rw [hst b i hb]; exact Stack.read_new⟩⟩ hs.next⟩
  · rcases hk with rfl | rfl <;> exact nofun
  · have : ∀ b i, b = s1.home p.buf ∧ p.off ≤ i ∧ i < p.off + n → W b i ∨ g.shared b i := fun b i hb => .inr (h1.read b i (by rw [← h1.at_]; exact hb)).1
    rcases hk with rfl | rfl <;> exact this

theorem keeps_mut {prot : Bool} {kind : Kind} {k : Ptr → Act} (hk : kind = .mut ∨ kind = .rawMut) (K : Know g W s) (h : Dst W s p P n)
    (hn : ∀ s' q, Know g W s' → Moves g (fun b i => ¬ W b i ∨ In P n b i) s s' → Dst W s' q P n → s.next ≤ q.buf → Keeps g W (k q) s') : Keeps g W (.retag prot kind p n k) s := by
  refine .mk rfl fun s1 hs => ?_
  have K1 := K.rely hs
  have h1 := h.rely K hs
  obtain ⟨s2, e, em, hR⟩ := retag_ok (s := s1) (p := p) (n := n) (k := kind) (prot := if prot then some s1.frame else none) fun b i hb => by
    rw [h1.at_] at hb
    obtain ⟨-, it, rest, e1, e2, e3⟩ := h1.top b i hb
    rcases hk with rfl | rfl
    · rw [Kind.apply, e1, Stack.write_top e2 e3]; rfl
    · rw [Kind.apply, e1, Stack.addRaw_top e2 e3]; rfl
  have hst : ∀ b i, In P n b i → ∃ perm, (perm = .unique ∨ perm = .sharedRW) ∧ s2.stack b i = ⟨perm, s1.next, if prot then some s1.frame else none⟩ :: s1.stack b i := fun b i hb => by
    have := hR.inside b i (by rw [h1.at_]; exact hb)
    obtain ⟨-, it, rest, e1, e2, e3⟩ := h1.top b i hb
    rcases hk with rfl | rfl
    · rw [Kind.apply, e1, Stack.write_top e2 e3] at this
      exact ⟨.unique, .inl rfl, by rw [e1]; exact (Option.some.inj this).symm⟩
    · rw [Kind.apply, e1, Stack.addRaw_top e2 e3] at this
      exact ⟨.sharedRW, .inr rfl, by rw [e1]; exact (Option.some.inj this).symm⟩
  have hout : ∀ b i, ¬ In P n b i → s2.stack b i = s1.stack b i := fun b i hb => hR.outside b i (by rw [h1.at_]; exact hb)
  have hm : Moves g (In P n) s1 s2 :=
    ⟨by rw [hR.next]; omega, hR.frame, fun t ht => hR.home_old ht, by rw [em], by rw [em], fun b i _ => by rw [em], fun b i hb _ => hout b i hb,
      fun b i hr => ⟨[], hout b i fun hb => K.apart b i (h1.top b i hb).1 hr, nofun⟩⟩
  have K2 : Know g W s2 := by
    refine ⟨Nat.le_trans K1.next hm.next, hR.frame.trans K1.frame, by rw [em, K1.size], fun b i hb => by rw [em, K1.source b i hb], K1.apart, fun b i hb => ?_⟩
    by_cases hi : In P n b i
    · obtain ⟨perm, -, e⟩ := hst b i hi
      obtain ⟨new, e', hn⟩ := K1.grown b i hb
      refine ⟨_ :: new, by rw [e, e']; rfl, fun it hi => ?_⟩
      rcases List.mem_cons.1 hi with rfl | hi
      · exact ⟨K1.next, by rw [hR.next]; exact Nat.lt_succ_self _, prot_frame K1⟩
      · exact (hn it hi).mono hm.next
    · exact (K1.grown b i hb).moves hm hi (K1.apart b i hb)
  have hw : ∀ b i, b = s1.home p.buf ∧ p.off ≤ i ∧ i < p.off + n → W b i := fun b i hb => (h1.top b i (by rw [← h1.at_]; exact hb)).1
  refine ⟨_, s2, by simp only [Act.step, e], hm.mono fun b i hb => (h1.top b i hb).1, ?_, ?_, hn s2 _ K2 ((hs.mono fun b i h => .inl h).trans (hm.mono fun b i h => .inr h))
    ⟨by rw [hR.next]; exact Nat.lt_succ_self _, hR.place_new.trans h1.at_, fun b i hb => ⟨(h1.top b i hb).1, ?_⟩⟩ hs.next⟩
  · rcases hk with rfl | rfl
    · exact hw
    · exact nofun
  · rcases hk with rfl | rfl <;> exact nofun
  · obtain ⟨perm, hp, e⟩ := hst b i hb
    exact ⟨_, _, e, rfl, hp⟩

theorem keeps_chk {k : Act} (K : Know g W s) (hp : p.buf < s.next) (hle : p.off ≤ g.size (s.home p.buf)) (hn : ∀ s', Know g W s' → Rely g W s s' → Keeps g W k s') : Keeps g W (.chk p k) s := by
  refine .mk rfl fun s1 hs => ⟨k, s1, ?_, .refl _, nofun, nofun, hn s1 (K.rely hs) hs⟩
  simp only [Act.step]
  rw [if_pos]
  rw [hs.home _ hp, (K.rely hs).size]; exact hle

/-! ### Functions of slices -/

theorem keeps_as_ptr {k : Ptr → Act} (K : Know g W s) (h : Src g s p P n) (hn : ∀ s' q, Know g W s' → Rely g W s s' → Src g s' q P n → s.next ≤ q.buf → Keeps g W (k q) s') :
    Keeps g W (Act.as_ptr p n k) s :=
  keeps_shared (.inl rfl) K h fun _ _ K1 m1 h1 _ => keeps_shared (.inr rfl) K1 h1 fun s2 q K2 m2 h2 l2 => hn s2 q K2 (m1.trans m2) h2 (Nat.le_trans m1.next l2)

theorem keeps_as_mut_ptr {k : Ptr → Act} (K : Know g W s) (h : Dst W s p P n)
    (hn : ∀ s' q, Know g W s' → Moves g (fun b i => ¬ W b i ∨ In P n b i) s s' → Dst W s' q P n → s.next ≤ q.buf → Keeps g W (k q) s') : Keeps g W (Act.as_mut_ptr p n k) s :=
  keeps_mut (.inl rfl) K h fun _ _ K1 m1 h1 _ => keeps_mut (.inl rfl) K1 h1 fun _ _ K2 m2 h2 _ => keeps_mut (.inr rfl) K2 h2 fun s3 q K3 m3 h3 l3 =>
    hn s3 q K3 ((m1.trans m2).trans m3) h3 (Nat.le_trans (m1.trans m2).next l3)

theorem keeps_split_at {k : Ptr → Ptr → Act} {mid : Nat} (hmid : mid ≤ n) (hsz : P.off + n ≤ g.size P.buf) (K : Know g W s) (h : Src g s p P n)
    (hn : ∀ s' l r, Know g W s' → Rely g W s s' → Src g s' l P mid → Src g s' r (P.add mid) (n - mid) → Keeps g W (k l r) s') : Keeps g W (Act.split_at p n mid k) s :=
  keeps_shared (.inl rfl) K h fun _ _ K1 m1 h1 _ => keeps_as_ptr K1 h1 fun s2 q K2 m2 h2 _ =>
    keeps_chk K2 h2.lt (by rw [show (q.add mid).off = q.off + mid from rfl, show (q.add mid).buf = q.buf from rfl, h2.home, h2.off]; omega) fun s3 K3 m3 =>
      keeps_shared (.inl rfl) K3 ((h2.moves m3).take hmid) fun s4 l K4 m4 h4 _ => keeps_shared (.inl rfl) K4 (((h2.moves m3).moves m4).drop hmid) fun s5 r K5 m5 h5 _ =>
        hn s5 l r K5 ((((m1.trans m2).trans m3).trans m4).trans m5) (h4.moves m5) h5

theorem keeps_split_at_mut {k : Ptr → Ptr → Act} {mid : Nat} (hmid : mid ≤ n) (hsz : P.off + n ≤ g.size P.buf) (K : Know g W s) (h : Dst W s p P n)
    (hn : ∀ s' l r, Know g W s' → Moves g (fun b i => ¬ W b i ∨ In P n b i) s s' → Dst W s' l P mid → Dst W s' r (P.add mid) (n - mid) → Keeps g W (k l r) s') :
    Keeps g W (Act.split_at_mut p n mid k) s :=
  keeps_mut (.inl rfl) K h fun _ _ K1 m1 h1 _ => keeps_mut (.inl rfl) K1 h1 fun _ _ K2 m2 h2 _ => keeps_as_mut_ptr K2 h2 fun s3 q K3 m3 h3 _ =>
    keeps_chk K3 h3.lt (by rw [show (q.add mid).off = q.off + mid from rfl, show (q.add mid).buf = q.buf from rfl, h3.home, h3.off]; omega) fun s4 K4 m4 =>
      keeps_mut (.inl rfl) K4 ((h3.rely K3 m4).take hmid) fun s5 l K5 m5 h5 _ => by
        have hd : ∀ b i, In P mid b i → ¬ In (P.add mid) (n - mid) b i := by
          rintro b i ⟨a1, a2, a3⟩ ⟨b1, b2, b3⟩
          simp only [Ptr.add] at b2; omega
        have hr : Dst W s5 (q.add mid) (P.add mid) (n - mid) := ((h3.rely K3 m4).drop hmid).moves K4 m5 fun b i hb hx =>
          hx.elim (fun h' => h' ((h3.drop hmid).top b i hb).1) fun h' => hd b i h' hb
        exact keeps_mut (.inl rfl) K5 hr fun s6 r K6 m6 h6 _ =>
          hn s6 l r K6 (((((m1.trans m2).trans m3).trans (m4.mono fun b i h => .inl h)).trans (m5.mono fun b i h => h.imp_right (in_mono hmid))).trans (m6.mono fun b i h => h.imp_right (in_add hmid)))
            (h5.moves K5 m6 fun b i hb hx => hx.elim (fun h' => h' (h5.top b i hb).1) (hd b i hb)) h6

end Simd.Borrow
