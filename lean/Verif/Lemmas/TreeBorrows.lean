import Verif.Spec.TreeBorrows
import Verif.Lemmas.BorrowFrame
/-
Borrow trees: what reads, writes and retags do to them, and how to follow a program with borrow trees and the same program without them at once.
-/
namespace Simd.Tree
open Spec
open Borrow (Piece)

/-! ### One byte, one tag -/

namespace Cell

/-- An access that has been made may be made again, and changes nothing. -/
theorem step_idem {w loc prot : Bool} {c c' : Cell} (h : c.step w loc prot = some c') : c'.step w loc prot = some c' := by
  obtain ⟨q, a⟩ := c
  revert h
  cases w <;> cases loc <;> cases prot <;> cases a <;> (first | (cases q with | reserved c => cases c <;> (intro h; cases h) <;> rfl | _ => (intro h; cases h) <;> rfl))

/-- A write after a read is a write. -/
theorem read_write {loc prot : Bool} {c c1 c2 : Cell} (h : c.step false loc prot = some c1) (h2 : c1.step true loc prot = some c2) : c.step true loc prot = some c2 := by
  obtain ⟨q, a⟩ := c
  revert h
  cases loc <;> cases prot <;> cases a <;> (first | (cases q with | reserved c => cases c <;> (intro h; cases h) <;> exact h2 | _ => (intro h; cases h) <;> exact h2))

/-- A read after a write changes nothing. -/
theorem write_read {loc prot : Bool} {c c1 : Cell} (h : c.step true loc prot = some c1) : c1.step false loc prot = some c1 := by
  obtain ⟨q, a⟩ := c
  revert h
  cases loc <;> cases prot <;> cases a <;> (first | (cases q with | reserved c => cases c <;> (intro h; cases h) <;> rfl | _ => (intro h; cases h) <;> rfl))

/-- What may be written may be read, and may be written afterwards. -/
theorem read_first {loc prot : Bool} {c c2 : Cell} (h : c.step true loc prot = some c2) : ∃ c1, c.step false loc prot = some c1 ∧ c1.step true loc prot = some c2 := by
  obtain ⟨q, a⟩ := c
  revert h
  cases loc <;> cases prot <;> cases a <;> (first | (cases q with | reserved c => cases c <;> (intro h; cases h) <;> exact ⟨_, rfl, rfl⟩ | _ => (intro h; cases h) <;> exact ⟨_, rfl, rfl⟩))

/-- Foreign accesses are no concern of tags that are not protected. -/
theorem step_foreign {w : Bool} (c : Cell) : (c.step w false false).isSome := by
  obtain ⟨q, a⟩ := c
  cases w <;> cases a <;> (first | (cases q with | reserved c => cases c <;> rfl | _ => rfl))

theorem step_acc {w loc prot : Bool} {c c' : Cell} (h : c.step w loc prot = some c') : c'.acc = (c.acc || loc) := by
  obtain ⟨q, a⟩ := c
  revert h
  cases w <;> cases loc <;> cases prot <;> cases a <;> (first | (cases q with | reserved c => cases c <;> (intro h; cases h) <;> rfl | _ => (intro h; cases h) <;> rfl))

end Cell

/-! ### Following two programs at once -/

variable {α β : Type}

/-- The outcome with borrow trees is of the same kind as the one without, memory is the same, and the results and the final state are as stated. -/
def Sim (r : Result α) (o : Out β) (Q : α → β → State → Prop) (E : State → Prop) : Prop :=
  match r, o with
  | .ok a s, .ok b m => s.mem = m ∧ Q a b s
  | .err s, .err m => s.mem = m ∧ E s
  | .panic, .panic => True
  | _, _ => False

namespace Sim

theorem mono {r : Result α} {o : Out β} {Q Q' : α → β → State → Prop} {E E' : State → Prop} (h : Sim r o Q E) (hQ : ∀ a b s, Q a b s → Q' a b s) (hE : ∀ s, E s → E' s) :
    Sim r o Q' E' := by
  cases r <;> cases o <;> first | exact h.elim | trivial | exact ⟨h.1, hQ _ _ _ h.2⟩ | exact ⟨h.1, hE _ h.2⟩

theorem bind {γ δ : Type} {x : BProg α} {f : α → BProg γ} {y : Prog β} {g : β → Prog δ} {s : State} {m : Mem} {Q : α → β → State → Prop} {E : State → Prop}
    {Q' : γ → δ → State → Prop} (h : Sim (x s) (y.run m) Q E) (hf : ∀ a b s', y.run m = .ok b s'.mem → Q a b s' → Sim (f a s') ((g b).run s'.mem) Q' E) :
    Sim ((x >>= f) s) ((y >>= g).run m) Q' E := by
  rw [run_bind]
  show Sim (BProg.bind x f s) _ _ _
  unfold BProg.bind
  cases hx : x s <;> cases hy : y.run m <;> rw [hx, hy] at h <;> first | exact h.elim | trivial | skip
  · obtain ⟨rfl, h⟩ := h
    exact hf _ _ _ hy h

/-- A step of the program with borrow trees only. -/
theorem left {γ δ : Type} {x : BProg α} {f : α → BProg γ} {s : State} {o : Out δ} {Q : α → State → Prop} {E E' : State → Prop}
    {Q' : γ → δ → State → Prop} (h : Sim (x s) (.ok () s.mem) (fun a _ s' => Q a s') E') (hf : ∀ a s', s'.mem = s.mem → Q a s' → Sim (f a s') o Q' E) :
    Sim ((x >>= f) s) o Q' E := by
  show Sim (BProg.bind x f s) _ _ _
  unfold BProg.bind
  cases hx : x s <;> rw [hx] at h <;> first | exact h.elim | exact hf _ _ h.1 h.2

theorem ret {a : α} {b : β} {s : State} {Q : α → β → State → Prop} {E : State → Prop} (h : Q a b s) : Sim ((pure a : BProg α) s) ((pure b : Prog β).run s.mem) Q E :=
  ⟨rfl, h⟩

theorem ret_left {a : α} {s : State} {Q : α → Unit → State → Prop} {E : State → Prop} (h : Q a () s) : Sim ((pure a : BProg α) s) (.ok () s.mem) Q E :=
  ⟨rfl, h⟩

theorem ensure (c : Bool) {s : State} {E : State → Prop} (hE : E s) :
    Sim (prog (Simd.ensure c) s) ((Simd.ensure c).run s.mem) (fun _ _ s' => s' = s ∧ c = true) E := by
  cases c
  · exact ⟨rfl, hE⟩
  · exact ⟨rfl, rfl, rfl⟩

theorem assert (c : Bool) {s : State} {E : State → Prop} :
    Sim (prog (Simd.assert c) s) ((Simd.assert c).run s.mem) (fun _ _ s' => s' = s ∧ c = true) E := by
  cases c
  · trivial
  · exact ⟨rfl, rfl, rfl⟩

theorem liftO (o : Option α) {s : State} {E : State → Prop} :
    Sim (prog (Simd.liftO o) s) ((Simd.liftO o).run s.mem) (fun a b s' => s' = s ∧ b = a ∧ o = some a) E := by
  cases o
  · trivial
  · exact ⟨rfl, rfl, rfl, rfl⟩

end Sim

/-! ### Accesses -/

theorem State.step_eq (s : State) (w : Bool) (t b i u : Nat) : s.step w t b i u = (s.cell b i u).step w (s.up t u) (s.prot u) := rfl

theorem touch_ok {s : State} {w : Bool} {p : Ptr} {n : Nat} (h : ∀ b i, In (place s p) n b i → Allowed s w p.buf b i) :
    ∃ S, s.touch w p n = some S ∧ (∀ b i, In (place s p) n b i → Accessed s w p.buf b (s.cell b i) (S b i)) ∧ ∀ b i, ¬ In (place s p) n b i → S b i = s.cell b i := by
  unfold State.touch
  rw [if_pos fun i hi => ⟨(h (s.home p.buf) (p.off + i) ⟨rfl, by simp [place], by simp [place]; omega⟩).1,
    (h (s.home p.buf) (p.off + i) ⟨rfl, by simp [place], by simp [place]; omega⟩).2.1,
    fun u h1 h2 => (h (s.home p.buf) (p.off + i) ⟨rfl, by simp [place], by simp [place]; omega⟩).2.2 u ⟨h1, h2⟩⟩]
  refine ⟨_, rfl, fun b i hi u hu => ?_, fun b i hi => funext fun u => ?_⟩
  · have hi' : b = s.home p.buf ∧ p.off ≤ i ∧ i < p.off + n := hi
    dsimp only
    rw [if_pos ⟨hi'.1, hi'.2.1, hi'.2.2, hu⟩]
    obtain ⟨st, hst⟩ := Option.isSome_iff_exists.1 ((h b i hi).2.2 u hu)
    rw [hst]; exact hst
  · have hi' : ¬ (b = s.home p.buf ∧ p.off ≤ i ∧ i < p.off + n) := hi
    rw [if_neg fun h => hi' ⟨h.1, h.2.1, h.2.2.1⟩]

/-- The state after a retag. -/
structure Retagged (s s' : State) (prot : Bool) (k : Kind) (p : Ptr) (n : Nat) : Prop where
  mem : s'.mem = s.mem
  next : s'.next = s.next + 1
  guard : s'.guard = match prot, s.guard with
    | true, l :: g => (s.next :: l) :: g
    | _, g => g
  home : s'.home = fun t => if t = s.next then s.home p.buf else s.home t
  up : s'.up = fun t u => if t = s.next then u = s.next || s.up p.buf u else s.up t u
  freed : s'.freed = s.freed
  new : ∀ b i, (s'.cell b i s.next).perm = k.perm ∧ ((s'.cell b i s.next).acc = true ↔ In (place s p) n b i)
  inside : ∀ b i, In (place s p) n b i → Accessed s false p.buf b (s.cell b i) (s'.cell b i)
  outside : ∀ b i, ¬ In (place s p) n b i → Same s b (s.cell b i) (s'.cell b i)

theorem retag_sim {s : State} {prot : Bool} {k : Kind} {p : Ptr} {n : Nat} (h : Readable s p n) {E : State → Prop} :
    Sim (retagWith prot k p n s) (.ok () s.mem) (fun r _ s' => r = ⟨s.next, p.off⟩ ∧ Retagged s s' prot k p n) E := by
  obtain ⟨S, h1, h2, h3⟩ := touch_ok h.2
  unfold retagWith
  rw [h1]
  refine ⟨rfl, rfl, rfl, rfl, rfl, rfl, rfl, rfl, fun b i => ?_, fun b i hi u hu => ?_, fun b i hi u hu => ?_⟩
  · simp only [if_true]
    exact ⟨trivial, decide_eq_true_iff⟩
  · have hne : ¬ u = s.next := Nat.ne_of_lt hu.1
    simp only [hne, if_false]
    exact h2 b i hi u hu
  · have hne : ¬ u = s.next := Nat.ne_of_lt hu.1
    simp only [hne, if_false]
    rw [h3 b i hi]

/-- An access through tag `t` to a byte of allocation `b` is allowed in all the given states of the byte, and leads from one to another. -/
def Goes (s : State) (w : Bool) (t b : Nat) (K : (Nat → Cell) → Prop) : Prop :=
  ∀ c, K c → (∀ u, s.Has b u → ((c u).step w (s.up t u) (s.prot u)).isSome) ∧ ∀ c', Accessed s w t b c c' → K c'

/-- Only bytes and their states have changed. -/
structure Kept (s s' : State) : Prop where
  next : s'.next = s.next
  guard : s'.guard = s.guard
  home : s'.home = s.home
  up : s'.up = s.up
  size : ∀ b, s'.mem.size b = s.mem.size b
  nbuf : s'.mem.nbuf = s.mem.nbuf
  freed : s'.freed = s.freed

unseal Ren Uses in
theorem prog_sim {R : α → α → Prop} {x y : Prog α} {s : State} (h : Ren s.home R x y) {A : Nat → Nat → Prop} (hA : ∀ b b' i, A b i → A b' i → s.home b = s.home b' → b = b')
    {μ : Mem} (hP : Piece s.home A x μ y s.mem) {K : Nat → Nat → (Nat → Cell) → Prop}
    {sz : Nat → Nat} (hz : ∀ b, sz b = s.mem.size b) (hk : ∀ a ∈ x.trace μ, match a with
      | .load p n => ∀ i, In p n p.buf i → i < sz (s.home p.buf) ∧ s.freed (s.home p.buf) = false ∧ Goes s false p.buf (s.home p.buf) (K (s.home p.buf) i)
      | .store p n => ∀ i, In p n p.buf i → i < sz (s.home p.buf) ∧ s.freed (s.home p.buf) = false ∧ Goes s true p.buf (s.home p.buf) (K (s.home p.buf) i))
    (h0 : ∀ b i, K b i (s.cell b i)) :
    Sim (prog x s) (y.run s.mem) (fun a b s' => R a b ∧ Kept s s' ∧ ∀ b i, K b i (s'.cell b i)) (fun s' => Kept s s' ∧ ∀ b i, K b i (s'.cell b i)) := by
  induction x generalizing y μ s with
  | pure a => cases y <;> first | exact ⟨rfl, h, ⟨rfl, rfl, rfl, rfl, fun _ => rfl, rfl, rfl⟩, h0⟩ | exact absurd rfl hP.safe' | exact h.elim
  | err => cases y <;> first | exact ⟨rfl, ⟨rfl, rfl, rfl, rfl, fun _ => rfl, rfl, rfl⟩, h0⟩ | exact absurd rfl hP.safe' | exact h.elim
  | panic => cases y <;> first | trivial | exact absurd rfl hP.safe' | exact h.elim
  | ub => exact absurd rfl hP.safe
  | load p n k ih =>
    cases y with
    | load p' n' k' =>
      obtain ⟨rfl, rfl, h⟩ := h
      obtain ⟨hs, hc, ht, hn, hx, hy⟩ := hP
      have hr : s.mem.read ⟨s.home p.buf, p.off⟩ n' = μ.read p n' := by
        unfold Mem.read
        dsimp only
        rw [hs, readFrom_ren n' p.off fun i h1 h2 => hc _ _ (ht (.load p n') (by simp [Prog.trace]) _ _ ⟨rfl, h1, h2⟩)]
      have hl : ∀ b i, In (place s p) n' b i → i < sz b ∧ s.freed b = false ∧ Goes s false p.buf b (K b i) := by
        rintro b i ⟨rfl, h1, h2⟩
        exact hk (.load p n') (by simp [Prog.trace]) i ⟨rfl, h1, h2⟩
      obtain ⟨S, e1, e2, e3⟩ := touch_ok (s := s) (w := false) (p := p) (n := n') fun b i hi => ⟨hz b ▸ (hl b i hi).1, (hl b i hi).2.1, ((hl b i hi).2.2 _ (h0 b i)).1⟩
      simp only [Prog.trace, Prog.run, hr, prog, e1] at hx hy ht hk ⊢
      cases hr' : μ.read p n' with
      | none => rw [hr'] at hx; exact absurd rfl hx
      | some bs =>
        rw [hr'] at hx hy ht hk
        refine Sim.mono (ih bs (s := { s with cell := S }) (h bs) hA ⟨hs, hc, ht.tail, And.right hn bs, hx, hy⟩ hz (fun a ha => hk a (.tail _ ha)) fun b i => by
          by_cases hi : In (place s p) n' b i
          · exact ((hl b i hi).2.2 _ (h0 b i)).2 _ (e2 b i hi)
          · show K b i (S b i)
            rw [e3 b i hi]; exact h0 b i)
          (fun _ _ _ h => ⟨h.1, ⟨h.2.1.next, h.2.1.guard, h.2.1.home, h.2.1.up, h.2.1.size, h.2.1.nbuf, h.2.1.freed⟩, h.2.2⟩) fun _ h => ⟨⟨h.1.next, h.1.guard, h.1.home, h.1.up, h.1.size, h.1.nbuf, h.1.freed⟩, h.2⟩
    | ub => exact absurd rfl hP.safe'
    | _ => exact h.elim
  | store p bs k ih =>
    cases y with
    | store p' bs' k' =>
      obtain ⟨rfl, rfl, h⟩ := h
      obtain ⟨hs, hc, ht, hn, hx, hy⟩ := hP
      have hl : ∀ b i, In (place s p) bs'.length b i → i < sz b ∧ s.freed b = false ∧ Goes s true p.buf b (K b i) := by
        rintro b i ⟨rfl, h1, h2⟩
        exact hk (.store p bs'.length) (by simp [Prog.trace]) i ⟨rfl, h1, h2⟩
      obtain ⟨S, e1, e2, e3⟩ := touch_ok (s := s) (w := true) (p := p) (n := bs'.length) fun b i hi => ⟨hz b ▸ (hl b i hi).1, (hl b i hi).2.1, ((hl b i hi).2.2 _ (h0 b i)).1⟩
      simp only [Prog.trace, Prog.run, hs, prog, e1] at hx hy ht hk ⊢
      split at hx
      · rename_i hb
        rw [if_pos hb] at hy ht hk ⊢
        rw [if_pos hb]
        have hp : ∀ i, p.off ≤ i → i < p.off + bs'.length → A p.buf i := fun i h1 h2 => ht (.store p bs'.length) (.head _) _ _ ⟨rfl, h1, h2⟩
        refine Sim.mono (ih (s := { s with cell := S, mem := s.mem.write ⟨s.home p.buf, p.off⟩ bs' }) h hA (μ := μ.write p bs')
          ⟨hs, (fun b i ha => by
            simp only [Mem.write]
            by_cases hi : p.off ≤ i ∧ i < p.off + bs'.length
            · by_cases hb : b = p.buf
              · simp [hb, hi]
              · have : s.home b ≠ s.home p.buf := fun e => hb (hA _ _ _ ha (hp i hi.1 hi.2) e)
                simp [hb, this, hc b i ha]
            · rw [if_neg (by omega), if_neg (by omega), hc b i ha]), ht.tail, And.right hn, hx, hy⟩ hz (fun a ha => hk a (.tail _ ha)) fun b i => by
          by_cases hi : In (place s p) bs'.length b i
          · exact ((hl b i hi).2.2 _ (h0 b i)).2 _ (e2 b i hi)
          · show K b i (S b i)
            rw [e3 b i hi]; exact h0 b i)
          (fun _ _ _ h => ⟨h.1, ⟨h.2.1.next, h.2.1.guard, h.2.1.home, h.2.1.up, h.2.1.size, h.2.1.nbuf, h.2.1.freed⟩, h.2.2⟩) fun _ h => ⟨⟨h.1.next, h.1.guard, h.1.home, h.1.up, h.1.size, h.1.nbuf, h.1.freed⟩, h.2⟩
      · exact absurd rfl hx
    | ub => exact absurd rfl hP.safe'
    | _ => exact h.elim
  | chk p k ih =>
    cases y with
    | chk p' k' =>
      obtain ⟨rfl, h⟩ := h
      obtain ⟨hs, hc, ht, hn, hx, hy⟩ := hP
      simp only [Prog.trace, Prog.run, hs, prog] at hx hy ht hk ⊢
      split at hx
      · rename_i hb
        rw [if_pos hb] at hy ht hk ⊢
        rw [if_pos hb]
        exact ih h hA ⟨hs, hc, ht, hn, hx, hy⟩ hz hk h0
      · exact absurd rfl hx
    | ub => exact absurd rfl hP.safe'
    | _ => exact h.elim
  | alloc n k ih => exact False.elim hP.noalloc

end Simd.Tree
