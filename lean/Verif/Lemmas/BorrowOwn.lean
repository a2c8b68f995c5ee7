import Verif.Spec.BorrowHeap
import Verif.Lemmas.BorrowStrip
import Verif.Lemmas.BorrowSeq
/-
Owners with borrow stacks: allocation, deallocation, and turning one owner into another.
-/
namespace Simd
open Spec

unseal Uses in
/-- A program that does not allocate leaves allocations as they are. -/
theorem Uses.shape {α : Type} {L W : Nat → Prop} {R : α → Prop} {x : Prog α} (h : Uses L W R x) {m m' : Mem} (hx : (∃ a, x.run m = .ok a m') ∨ x.run m = .err m') :
    m'.nbuf = m.nbuf ∧ m'.size = m.size := by
  induction x generalizing m with
  | pure a => rcases hx with ⟨_, hx⟩ | hx <;> cases hx; exact ⟨rfl, rfl⟩
  | err => rcases hx with ⟨_, hx⟩ | hx <;> cases hx; exact ⟨rfl, rfl⟩
  | load p n k ih =>
    simp only [Prog.run] at hx
    split at hx
    · exact ih _ (And.right h _) hx
    · rcases hx with ⟨_, hx⟩ | hx <;> cases hx
  | store p bs k ih =>
    simp only [Prog.run] at hx
    split at hx
    · exact ih (m := m.write p bs) (And.right h) hx
    · rcases hx with ⟨_, hx⟩ | hx <;> cases hx
  | chk p k ih =>
    simp only [Prog.run] at hx
    split at hx
    · exact ih h hx
    · rcases hx with ⟨_, hx⟩ | hx <;> cases hx
  | alloc n k ih => exact False.elim h
  | _ => rcases hx with ⟨_, hx⟩ | hx <;> cases hx

/-- No undefined behaviour, and none later. -/
theorem Prog.safe_next {α β : Type} {x : Prog α} {f : α → Prog β} {m m' : Mem} {a : α} (h : (x >>= f).run m ≠ .ub) (hx : x.run m = .ok a m') : (f a).run m' ≠ .ub := by
  rw [run_bind, hx] at h; exact h

theorem Prog.safe_head {α β : Type} {x : Prog α} {f : α → Prog β} {m : Mem} (h : (x >>= f).run m ≠ .ub) : x.run m ≠ .ub := fun e => h (by rw [run_bind, e])

theorem Prog.noerr_next {α β : Type} {x : Prog α} {f : α → Prog β} {m m' : Mem} {a : α} (h : ∀ m', (x >>= f).run m ≠ .err m') (hx : x.run m = .ok a m') : ∀ m'', (f a).run m' ≠ .err m'' := by
  intro m'' e; exact h m'' (by rw [run_bind, hx]; exact e)

theorem Prog.noerr_head {α β : Type} {x : Prog α} {f : α → Prog β} {m : Mem} (h : ∀ m', (x >>= f).run m ≠ .err m') : ∀ m', x.run m ≠ .err m' := fun m' e => h m' (by rw [run_bind, e])

end Simd

namespace Simd.Borrow
open Spec

variable {α β : Type} {s s1 s2 : State} {p q P Q : Ptr} {n m d : Nat} {G : Nat → Nat → Loan}

namespace Sim

/-- The run without borrow stacks is known. -/
theorem withRun {r : Result α} {y : Prog β} {m : Mem} {Q : α → β → State → Prop} {E : State → Prop} (h : Sim r (y.run m) Q E) :
    Sim r (y.run m) (fun a b s' => Q a b s' ∧ y.run m = .ok b s'.mem) (fun s' => E s' ∧ y.run m = .err s'.mem) := by
  cases r <;> cases hy : y.run m <;> rw [hy] at h <;> first | exact h.elim | trivial | exact ⟨h.1, h.2, by rw [h.1]⟩

theorem noErr {r : Result α} {y : Prog β} {m : Mem} {Q : α → β → State → Prop} {E E' : State → Prop} (h : Sim r (y.run m) Q E) (hn : ∀ m', y.run m ≠ .err m') : Sim r (y.run m) Q E' := by
  cases r <;> cases hy : y.run m <;> rw [hy] at h <;> first | exact h.elim | trivial | exact h | exact absurd hy (hn _)

/-- `?` with something to drop. -/
theorem orDrop {x : BProg α} {drop : BProg Unit} {o : Out β} {Q : α → β → State → Prop} {E E' E'' : State → Prop} (h : Sim (x s) o Q E)
    (hd : ∀ s', E s' → Sim (drop s') (.ok () s'.mem) (fun _ _ s'' => E' s'') E'') : Sim (orDrop x drop s) o Q E' := by
  unfold Borrow.orDrop
  cases hx : x s with
  | ok a s' => rw [hx] at h; cases o <;> first | exact h.elim | exact h
  | err s' =>
    rw [hx] at h
    cases o with
    | err m' =>
      obtain ⟨rfl, h⟩ := h
      have := hd s' h
      dsimp only
      cases hdr : drop s' <;> rw [hdr] at this <;> first | exact this.elim | exact this
    | _ => exact h.elim
  | panic => rw [hx] at h; cases o <;> first | exact h.elim | trivial
  | ub => rw [hx] at h; cases o <;> exact h.elim

/-- `Result` as a value. -/
theorem attempt {x : BProg α} {y : Prog β} {m : Mem} {Q : α → β → State → Prop} {E E' : State → Prop} (h : Sim (x s) (y.run m) Q E) :
    Sim (attempt x s) (y.attempt.run m) (fun a b s' => (∃ a' b', a = some a' ∧ b = some b' ∧ Q a' b' s' ∧ y.run m = .ok b' s'.mem) ∨ a = none ∧ b = none ∧ E s' ∧ y.run m = .err s'.mem) E' := by
  rw [run_attempt]
  unfold Borrow.attempt
  cases hx : x s <;> cases hy : y.run m <;> rw [hx, hy] at h <;> first | exact h.elim | trivial | skip
  · obtain ⟨rfl, h⟩ := h; exact ⟨rfl, .inl ⟨_, _, rfl, rfl, h, rfl⟩⟩
  · obtain ⟨rfl, h⟩ := h; exact ⟨rfl, .inr ⟨rfl, rfl, h, rfl⟩⟩

theorem padd {k : Nat} (h : (Simd.padd (place s p) k).run s.mem ≠ .ub) {E : State → Prop} :
    Sim (prog (Simd.padd p k) s) ((Simd.padd (place s p) k).run s.mem) (fun _ _ s' => s' = s) E := by
  have e : (Simd.padd (place s p) k).run s.mem = if p.off + k ≤ s.mem.size (s.home p.buf) then .ok () s.mem else .ub := rfl
  have e' : prog (Simd.padd p k) s = if p.off + k ≤ s.mem.size (s.home p.buf) then .ok () s else .ub := rfl
  rw [e] at h ⊢
  rw [e']
  split at h
  · rename_i hc; rw [if_pos hc, if_pos hc]; exact ⟨rfl, rfl⟩
  · exact absurd rfl h

end Sim

/-! ### Deallocation -/

/-- In memory that the program allocated or deallocated, a stack with a new item has only new items. -/
theorem new_items (hs : Sound s) (h : AfterCall s s1 G) {b i : Nat} (hG : G b i = .own) {it : Item} (hi : it ∈ s1.stack b i) (ht : s.next ≤ it.tag) : ∀ it ∈ s1.stack b i, NewItem s s1 it := by
  have := h.stack b i
  rw [hG] at this
  rcases this with e | e
  · rw [e] at hi; have := (hs b i it hi).1; omega
  · exact e

/-- Nothing is left of what was allocated since `s`. -/
def Clear (s s' : State) : Prop := ∀ b, s.mem.nbuf ≤ b → b < s'.mem.nbuf → Freed s' b

theorem _root_.Simd.Spec.Freed.ret {b : Nat} (h : Freed s b) : Freed s.ret b := fun i hi => by show (s.stack b i).map _ = []; rw [h i hi]; rfl

/-- `dealloc` of an allocation that is owned. -/
theorem dealloc_sim (h : Owns s p n) {E : State → Prop} :
    Sim (dealloc p n s) (.ok () s.mem) (fun _ _ s' => s'.next = s.next ∧ s'.frame = s.frame ∧ s'.home = s.home ∧ (∀ b i, (b = s.home p.buf ∧ i < n) → s'.stack b i = []) ∧
      ∀ b i, ¬ (b = s.home p.buf ∧ i < n) → s'.stack b i = s.stack b i) E := by
  unfold dealloc
  rw [if_pos ⟨h.start, h.size⟩]
  have hin : ∀ {b i}, In (place s p) n b i ↔ b = s.home p.buf ∧ i < n := fun {b i} => by
    show (b = s.home p.buf ∧ p.off ≤ i ∧ i < p.off + n) ↔ _
    rw [h.start]; omega
  have hf : ∀ b i, In (place s p) n b i → Stack.free p.buf (s.stack b i) = some [] := fun b i hi => by
    unfold Stack.free
    rw [if_pos ⟨h.mutable b i hi, (hin.1 hi).1 ▸ h.unprotected i (hin.1 hi).2⟩]
  obtain ⟨S, h1, h2, h3⟩ := touch_ok (s := s) (f := Stack.free p.buf) (p := p) (n := n) fun b i hi => by rw [hf b i hi]; rfl
  rw [h1]
  refine ⟨rfl, rfl, rfl, rfl, fun b i hi => ?_, fun b i hi => h3 b i fun h => hi (hin.1 h)⟩
  have := h2 b i (hin.2 hi)
  rw [hf b i (hin.2 hi)] at this
  exact (Option.some.inj this).symm

/-- Dropping an owner: afterwards its allocation is freed. -/
theorem drop_sim {x : BProg Unit} (hx : x = if n = 0 then pure () else dealloc p n) (h : Owns s p n) {E : State → Prop} :
    Sim (x s) (.ok () s.mem) (fun _ _ s' => s'.next = s.next ∧ s'.frame = s.frame ∧ s'.home = s.home ∧ (∀ b i, (b = s.home p.buf ∧ i < n) → s'.stack b i = []) ∧
      ∀ b i, ¬ (b = s.home p.buf ∧ i < n) → s'.stack b i = s.stack b i) E := by
  subst hx
  split
  · rename_i hn
    exact ⟨rfl, rfl, rfl, rfl, fun b i hi => by omega, fun _ _ _ => rfl⟩
  · exact dealloc_sim h

/-! ### From owner to owner -/

/-- `p` is on top, with the right to write. -/
def TopW (s : State) (p : Ptr) (n : Nat) : Prop := ∀ b i, In (place s p) n b i → ∃ perm prot rest, (perm = .unique ∨ perm = .sharedRW) ∧ s.stack b i = ⟨perm, p.buf, prot⟩ :: rest

theorem OnTop.topW {perm : Perm} (hp : perm = .unique ∨ perm = .sharedRW) (h : OnTop s perm p n) : TopW s p n := fun b i hi => by
  obtain ⟨rest, e⟩ := h b i hi
  exact ⟨perm, none, rest, hp, e⟩

theorem TopW.mutable (h : TopW s p n) : Mutable s p n := fun b i hi => by
  obtain ⟨perm, prot, rest, hp, e⟩ := h b i hi
  rw [e, show Stack.write p.buf (⟨perm, p.buf, prot⟩ :: rest) = _ from Stack.write_top rfl hp]; rfl

/-- `f` turns a pointer that is on top into a new one that is on top, of the given permission. -/
def Step (n : Nat) (perm : Perm) (f : Ptr → BProg Ptr) : Prop :=
  ∀ s p, Sound s → TopW s p n → Sim (f p s) (.ok () s.mem) (fun r _ s' => AfterCall s s' (G1 (place s p) n p.buf) ∧ Derived s s' p r ∧ OnTop s' perm r n) (fun _ => True)

theorem step_mut : Step n .unique fun p => retag .mut p n := fun _ _ _ h => slice_mut_sim h.mutable

theorem step_raw : Step n .sharedRW fun p => retag .rawMut p n := fun s p hs h => by
  have haddRaw : ∀ perm prot rest, (perm = .unique ∨ perm = .sharedRW) →
      Stack.addRaw p.buf ⟨.sharedRW, s.next, none⟩ (⟨perm, p.buf, prot⟩ :: rest) = some (⟨.sharedRW, s.next, none⟩ :: ⟨perm, p.buf, prot⟩ :: rest) := fun _ _ _ hp => Stack.addRaw_top rfl hp
  refine (retag_sim (E := fun _ => False) fun b i hi => ?_).mono ?_ (fun _ h => h.elim)
  · obtain ⟨perm, prot, rest, hp, e⟩ := h b i hi
    rw [Kind.apply, e, haddRaw _ _ _ hp]; rfl
  rintro r _ s1 ⟨rfl, h1⟩
  have htop : ∀ b i, In (place s p) n b i → s1.stack b i = ⟨.sharedRW, s.next, none⟩ :: s.stack b i ∧ (s.stack b i).write p.buf = some (s.stack b i) := fun b i hi => by
    obtain ⟨perm, prot, rest, hp, e⟩ := h b i hi
    have := h1.inside b i hi
    rw [Kind.apply, e, haddRaw _ _ _ hp] at this
    rw [e]
    exact ⟨(Option.some.inj this).symm, Stack.write_top rfl hp⟩
  refine ⟨⟨by rw [h1.next]; omega, h1.frame, fun t ht => h1.home_old ht, fun b i => ?_⟩, h1.derived, fun b i hi => ?_⟩
  · by_cases hb : In (place s p) n b i
    · rw [show G1 (place s p) n p.buf b i = _ from over_in hb]
      obtain ⟨e1, e2⟩ := htop b i hb
      refine .inr ⟨_, [_], e2, e1, fun it hi => ?_⟩
      cases List.mem_singleton.1 hi
      exact ⟨Nat.le_refl _, by rw [h1.next]; exact Nat.lt_succ_self _, rfl⟩
    · exact .inl (h1.outside b i hb)
  · rw [h1.place_new] at hi
    exact ⟨_, (htop b i hi).1⟩

theorem Step.seq {a b : Perm} (ha : a = .unique ∨ a = .sharedRW) {f g : Ptr → BProg Ptr} (hf : Step n a f) (hg : Step n b g) : Step n b fun p => f p >>= g := fun s p hs h => by
  refine Sim.left (hf s p hs h) ?_
  rintro r s1 hm ⟨h1, h2, h3⟩
  rw [← hm]
  refine (hg s1 r (h1.sound hs) (OnTop.topW ha h3)).mono ?_ fun _ h => h
  rintro r' _ s2 ⟨h4, h5, h6⟩
  rw [h2.place] at h4
  exact ⟨h1.push hs h4 (G1_new (Nat.le_refl _) h2.lo), ⟨Nat.le_trans h1.next h5.lo, h5.hi, h5.off.trans h2.off, h5.home.trans h2.home⟩, h6⟩

/-- A function that gets an owner or a `&mut`. -/
theorem Step.call_sim {perm : Perm} {f : Ptr → BProg Ptr} (hf : Step n perm f) (hs : Sound s) (hm : Mutable s p n) :
    Sim (call (arg .mut p n >>= f) s) (.ok () s.mem) (fun r _ s' => AfterCall s s' (G1 (place s p) n p.buf) ∧ Derived s s' p r ∧ OnTop s' perm r n) (fun _ => True) := by
  refine (Borrow.call_sim (k := .mut) (G := nothing) (o := .ok () s.mem) (Q := fun r _ s' => Derived s s' p r ∧ OnTop s' perm r n) (E := fun _ => True) (.inl rfl) hs hm fun s1 hm1 hs1 h => ?_).mono
    (fun _ _ _ h => h) fun _ _ => trivial
  simp only [↓reduceIte]
  rw [← hm1]
  have hn : s1.next = s.next + 1 := h.next
  have ht : TopW s1 ⟨s.next, p.off⟩ n := fun b i hi => by
    rw [h.place_new] at hi
    obtain ⟨rest, e, -⟩ := h.top_mut hi
    exact ⟨_, _, rest, .inl rfl, e⟩
  have hs' := hf s1 ⟨s.next, p.off⟩ hs1 ht
  cases hx : f ⟨s.next, p.off⟩ s1 with
  | ok r s2 =>
    rw [hx] at hs'
    obtain ⟨e, h1, h2, h3⟩ := hs'
    rw [h.place_new] at h1
    refine ⟨e, h1, ⟨?_, h2.hi, h2.off, h2.home.trans h.home_new⟩, OnTop.ret h3⟩
    have := h2.lo; omega
  | err | panic | ub => rw [hx] at hs'; exact hs'.elim

theorem Step.call {perm : Perm} {f : Ptr → BProg Ptr} (hf : Step n perm f) : Step n perm fun p => Borrow.call (arg .mut p n >>= f) := fun _ _ hs h => hf.call_sim hs h.mutable

theorem step_into_raw : Step n .sharedRW fun p => into_raw p n := step_raw.call
theorem step_from_raw : Step n .unique fun p => from_raw p n := step_mut

theorem step_init : Step n .unique fun p => into_raw p n >>= fun p => from_raw p n := step_into_raw.seq (.inr rfl) step_from_raw

theorem step_str : Step n .unique fun p => into_raw p n >>= fun p => retag .mut p n >>= fun p => (Borrow.call (arg .mut p n >>= fun p => retag .rawMut p n >>= fun p => retag .mut p n)) >>= fun p =>
    retag .rawMut p n >>= fun p => from_raw p n :=
  step_into_raw.seq (.inr rfl) (step_mut.seq (.inl rfl) ((Step.call (step_raw.seq (.inr rfl) step_mut)).seq (.inl rfl) (step_raw.seq (.inr rfl) step_from_raw)))

end Simd.Borrow
