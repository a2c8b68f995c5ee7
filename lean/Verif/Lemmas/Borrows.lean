import Verif.Spec.Borrows
import Verif.Lemmas.RenConfined
import Verif.Lemmas.Oblivious
/-
Borrow stacks: what reads, writes and retags do to them, and how to follow a program with borrow stacks and the same program without them at once.
-/
namespace Simd.Borrow
open Spec

/-! ### One stack -/

namespace Stack

theorem read_idem {t : Nat} {st r : Stack} (h : st.read t = some r) : Stack.read t r = some r := by
  induction st generalizing r with
  | nil => cases h
  | cons it st ih =>
    unfold Stack.read at h
    split at h
    · rename_i hg; cases h; rw [Stack.read, if_pos hg]
    · rename_i hg
      split at h
      · rename_i hu
        split at h
        · cases h
        · obtain ⟨r', hr, rfl⟩ := Option.map_eq_some_iff.1 h
          rw [Stack.read, if_neg (by simp), if_neg (by simp), ih hr]; rfl
      · rename_i hu
        obtain ⟨r', hr, rfl⟩ := Option.map_eq_some_iff.1 h
        rw [Stack.read, if_neg hg, if_neg hu, ih hr]; rfl

theorem read_append {t : Nat} {new r : Stack} (hn : ∀ it ∈ new, it.perm = .sharedRO) (h : Stack.read t r = some r) : Stack.read t (new ++ r) = some (new ++ r) := by
  induction new with
  | nil => exact h
  | cons it new ih =>
    rw [List.cons_append, Stack.read]
    split
    · rfl
    · rw [if_neg (by rw [hn it (.head _)]; decide), ih fun x hx => hn x (.tail _ hx)]; rfl

theorem read_mem {t : Nat} {st r : Stack} (h : st.read t = some r) : ∀ it ∈ r, ∃ it' ∈ st, it'.tag = it.tag ∧ it'.prot = it.prot := by
  induction st generalizing r with
  | nil => cases h
  | cons x st ih =>
    unfold Stack.read at h
    split at h
    · cases h; exact fun it hi => ⟨it, hi, rfl, rfl⟩
    · split at h
      · split at h
        · cases h
        · obtain ⟨r', hr, rfl⟩ := Option.map_eq_some_iff.1 h
          intro it hi
          rcases List.mem_cons.1 hi with rfl | hi
          · exact ⟨x, .head _, rfl, rfl⟩
          · obtain ⟨it', h1, h2⟩ := ih hr it hi
            exact ⟨it', .tail _ h1, h2⟩
      · obtain ⟨r', hr, rfl⟩ := Option.map_eq_some_iff.1 h
        intro it hi
        rcases List.mem_cons.1 hi with rfl | hi
        · exact ⟨it, .head _, rfl, rfl⟩
        · obtain ⟨it', h1, h2⟩ := ih hr it hi
          exact ⟨it', .tail _ h1, h2⟩

theorem read_top {t : Nat} {it : Item} {rest : Stack} (h : it.tag = t) (h' : it.perm ≠ .disabled) : Stack.read t (it :: rest) = some (it :: rest) := by
  rw [Stack.read, if_pos ⟨h, h'⟩]

theorem write_top {t : Nat} {it : Item} {rest : Stack} (h : it.tag = t) (h' : it.perm = .unique ∨ it.perm = .sharedRW) : Stack.write t (it :: rest) = some (it :: rest) := by
  rw [Stack.write, if_pos ⟨h, h'⟩]

theorem write_new {t : Nat} {prot : Option Nat} {rest : Stack} : Stack.write t (⟨.unique, t, prot⟩ :: rest) = some (⟨.unique, t, prot⟩ :: rest) := write_top rfl (.inl rfl)
theorem read_new {t : Nat} {prot : Option Nat} {rest : Stack} : Stack.read t (⟨.sharedRO, t, prot⟩ :: rest) = some (⟨.sharedRO, t, prot⟩ :: rest) := read_top rfl (by simp)

theorem write_suffix {t : Nat} {st w : Stack} (h : st.write t = some w) : ∃ new, st = new ++ w := by
  induction st generalizing w with
  | nil => cases h
  | cons it st ih =>
    unfold Stack.write at h
    split at h
    · cases h; exact ⟨[], rfl⟩
    · split at h
      · cases h
      · rename_i st' hst
        split at h
        · cases h; exact ⟨[], rfl⟩
        · split at h
          · cases h
          · cases h
            obtain ⟨new, rfl⟩ := ih hst
            exact ⟨it :: new, rfl⟩

theorem write_idem {t : Nat} {st w : Stack} (h : st.write t = some w) : Stack.write t w = some w := by
  induction st generalizing w with
  | nil => cases h
  | cons it st ih =>
    have h0 := h
    unfold Stack.write at h
    split at h
    · cases h; exact h0
    · split at h
      · cases h
      · rename_i st' hst
        split at h
        · cases h; exact h0
        · split at h
          · cases h
          · cases h; exact ih hst

theorem write_append {t : Nat} {new w : Stack} (hn : ∀ it ∈ new, it.prot = none) (h : Stack.write t w = some w) :
    ∃ a new', new = a ++ new' ∧ Stack.write t (new ++ w) = some (new' ++ w) := by
  induction new with
  | nil => exact ⟨[], [], rfl, h⟩
  | cons it new ih =>
    obtain ⟨a, new', e, ih⟩ := ih fun x hx => hn x (.tail _ hx)
    rw [List.cons_append, Stack.write]
    split
    · exact ⟨[], it :: new, rfl, rfl⟩
    · rw [ih]
      dsimp only
      split
      · exact ⟨[], it :: new, rfl, rfl⟩
      · rw [hn it (.head _)]
        exact ⟨it :: a, new', by rw [e]; rfl, rfl⟩

theorem read_release {t f : Nat} {st r : Stack} (h : st.read t = some r) : Stack.read t (st.map (Item.release f)) = some (r.map (Item.release f)) := by
  have hp : ∀ it : Item, (it.release f).perm = it.perm ∧ (it.release f).tag = it.tag := fun it => by unfold Item.release; split <;> exact ⟨rfl, rfl⟩
  induction st generalizing r with
  | nil => cases h
  | cons it st ih =>
    unfold Stack.read at h
    rw [List.map_cons, Stack.read, (hp it).1, (hp it).2]
    split at h
    · rename_i hg; cases h; rw [if_pos hg]; rfl
    · rename_i hg
      rw [if_neg hg]
      split at h
      · rename_i hu
        rw [if_pos hu]
        split at h
        · cases h
        · rename_i hs
          have hs : it.prot = none := by simpa using hs
          have hr : it.release f = it := by unfold Item.release; rw [hs]; rfl
          obtain ⟨r', hr', rfl⟩ := Option.map_eq_some_iff.1 h
          rw [hr, hs, ih hr']
          simp [Item.release, hs]
      · rename_i hu
        obtain ⟨r', hr', rfl⟩ := Option.map_eq_some_iff.1 h
        rw [if_neg hu, ih hr']
        rfl

theorem addRaw_top {t : Nat} {new it : Item} {rest : Stack} (h : it.tag = t) (h' : it.perm = .unique ∨ it.perm = .sharedRW) :
    Stack.addRaw t new (it :: rest) = some (new :: it :: rest) := by
  rw [Stack.addRaw, if_pos ⟨h, h'⟩]

theorem addRaw_new {t : Nat} {new : Item} {prot : Option Nat} {rest : Stack} : Stack.addRaw t new (⟨.unique, t, prot⟩ :: rest) = some (new :: ⟨.unique, t, prot⟩ :: rest) := addRaw_top rfl (.inl rfl)

end Stack

/-- Items of older calls are not released. -/
theorem release_old {f : Nat} {st : Stack} (h : ∀ it ∈ st, ∀ g, it.prot = some g → g < f) : st.map (Item.release f) = st := by
  conv_rhs => rw [← List.map_id st]
  refine List.map_congr_left fun it hi => ?_
  unfold Item.release
  rw [if_neg fun e => absurd (h it hi f e) (by omega)]
  rfl

theorem release_none {f : Nat} {st : Stack} (h : ∀ it ∈ st, it.prot = none) : st.map (Item.release f) = st :=
  release_old fun it hi g hg => by rw [h it hi] at hg; cases hg

/-! ### Following two programs at once -/

variable {α β : Type}

/-- The outcome with borrow stacks is of the same kind as the one without, memory is the same, and the results and the final state are as stated. -/
def Sim (r : Result α) (o : Out β) (Q : α → β → State → Prop) (E : State → Prop) : Prop :=
  match r, o with
  | .ok a s, .ok b m => s.mem = m ∧ Q a b s
  | .err s, .err m => s.mem = m ∧ E s
  | .panic, .panic => True
  | _, _ => False

namespace Sim

theorem mono {r : Result α} {o : Out β} {Q Q' : α → β → State → Prop} {E E' : State → Prop} (h : Sim r o Q E) (hQ : ∀ a b s, Q a b s → Q' a b s) (hE : ∀ s, E s → E' s) :
    Sim r o Q' E' := by
  cases r <;> cases o <;> first | exact h.elim | trivial | exact ⟨h.1, hQ _ _ _ h.2⟩ | exact ⟨h.1, hE _ h.2⟩

theorem bind {γ δ : Type} {x : BProg α} {f : α → BProg γ} {y : Prog β} {g : β → Prog δ} {s : State} {m : Mem} {Q : α → β → State → Prop} {E : State → Prop}
    {Q' : γ → δ → State → Prop} (h : Sim (x s) (y.run m) Q E) (hf : ∀ a b s', y.run m = .ok b s'.mem → Q a b s' → Sim (f a s') ((g b).run s'.mem) Q' E) :
    Sim ((x >>= f) s) ((y >>= g).run m) Q' E := by
  rw [run_bind]
  show Sim (BProg.bind x f s) _ _ _
  unfold BProg.bind
  cases hx : x s <;> cases hy : y.run m <;> rw [hx, hy] at h <;> first | exact h.elim | trivial | skip
  · obtain ⟨rfl, h⟩ := h
    exact hf _ _ _ hy h

/-- A step of the program with borrow stacks only. -/
theorem left {γ δ : Type} {x : BProg α} {f : α → BProg γ} {s : State} {o : Out δ} {Q : α → State → Prop} {E E' : State → Prop}
    {Q' : γ → δ → State → Prop} (h : Sim (x s) (.ok () s.mem) (fun a _ s' => Q a s') E') (hf : ∀ a s', s'.mem = s.mem → Q a s' → Sim (f a s') o Q' E) :
    Sim ((x >>= f) s) o Q' E := by
  show Sim (BProg.bind x f s) _ _ _
  unfold BProg.bind
  cases hx : x s <;> rw [hx] at h <;> first | exact h.elim | exact hf _ _ h.1 h.2

theorem ret {a : α} {b : β} {s : State} {Q : α → β → State → Prop} {E : State → Prop} (h : Q a b s) : Sim ((pure a : BProg α) s) ((pure b : Prog β).run s.mem) Q E :=
  ⟨rfl, h⟩

theorem ret_left {a : α} {s : State} {Q : α → Unit → State → Prop} {E : State → Prop} (h : Q a () s) : Sim ((pure a : BProg α) s) (.ok () s.mem) Q E :=
  ⟨rfl, h⟩

theorem ensure (c : Bool) {s : State} {E : State → Prop} (hE : E s) :
    Sim (prog (Simd.ensure c) s) ((Simd.ensure c).run s.mem) (fun _ _ s' => s' = s ∧ c = true) E := by
  cases c
  · exact ⟨rfl, hE⟩
  · exact ⟨rfl, rfl, rfl⟩

theorem assert (c : Bool) {s : State} {E : State → Prop} :
    Sim (prog (Simd.assert c) s) ((Simd.assert c).run s.mem) (fun _ _ s' => s' = s ∧ c = true) E := by
  cases c
  · trivial
  · exact ⟨rfl, rfl, rfl⟩

theorem liftO (o : Option α) {s : State} {E : State → Prop} :
    Sim (prog (Simd.liftO o) s) ((Simd.liftO o).run s.mem) (fun a b s' => s' = s ∧ b = a ∧ o = some a) E := by
  cases o
  · trivial
  · exact ⟨rfl, rfl, rfl, rfl⟩

end Sim

/-! ### Accesses -/

theorem touch_ok {s : State} {f : Stack → Option Stack} {p : Ptr} {n : Nat} (h : ∀ b i, In (place s p) n b i → (f (s.stack b i)).isSome) :
    ∃ S, s.touch f p n = some S ∧ (∀ b i, In (place s p) n b i → f (s.stack b i) = some (S b i)) ∧ ∀ b i, ¬ In (place s p) n b i → S b i = s.stack b i := by
  unfold State.touch
  have hc : ∀ i, i < n → (f (s.stack (s.home p.buf) (p.off + i))).isSome := fun i hi => h _ _ ⟨rfl, by simp [place], by simp [place]; omega⟩
  rw [if_pos hc]
  refine ⟨_, rfl, fun b i hi => ?_, fun b i hi => ?_⟩
  · have hi' : b = s.home p.buf ∧ p.off ≤ i ∧ i < p.off + n := hi
    rw [if_pos hi']
    have := h b i hi
    obtain ⟨st, hst⟩ := Option.isSome_iff_exists.1 this
    rw [hst]; rfl
  · have hi' : ¬ (b = s.home p.buf ∧ p.off ≤ i ∧ i < p.off + n) := hi
    rw [if_neg hi']

/-- The state after a retag. -/
structure Retagged (s s' : State) (prot : Option Nat) (k : Kind) (p : Ptr) (n : Nat) : Prop where
  next : s'.next = s.next + 1
  frame : s'.frame = s.frame
  home : s'.home = fun t => if t = s.next then s.home p.buf else s.home t
  inside : ∀ b i, In (place s p) n b i → k.apply p.buf s.next prot (s.stack b i) = some (s'.stack b i)
  outside : ∀ b i, ¬ In (place s p) n b i → s'.stack b i = s.stack b i

theorem retag_sim {s : State} {prot : Option Nat} {k : Kind} {p : Ptr} {n : Nat} (h : ∀ b i, In (place s p) n b i → (k.apply p.buf s.next prot (s.stack b i)).isSome) {E : State → Prop} :
    Sim (retagWith prot k p n s) (.ok () s.mem) (fun r _ s' => r = ⟨s.next, p.off⟩ ∧ Retagged s s' prot k p n) E := by
  obtain ⟨S, h1, h2, h3⟩ := touch_ok h
  unfold retagWith
  rw [h1]
  exact ⟨rfl, rfl, rfl, rfl, rfl, h2, h3⟩

/-- What is known about a program with tagged pointers, running on `μ`, and the same program with plain ones, running on `M`. -/
structure Piece (ρ : Nat → Nat) (A : Nat → Nat → Prop) (x : Prog α) (μ : Mem) (y : Prog β) (M : Mem) : Prop where
  size : ∀ b, M.size (ρ b) = μ.size b
  cell : ∀ b i, A b i → M.cell (ρ b) i = μ.cell b i
  inside : Inside A A (x.trace μ)
  noalloc : NoAlloc x
  safe : x.run μ ≠ .ub
  safe' : y.run M ≠ .ub

unseal Ren Uses in
theorem prog_sim {R : α → α → Prop} {x y : Prog α} {s : State} (h : Ren s.home R x y) {A : Nat → Nat → Prop} (hA : ∀ b b' i, A b i → A b' i → s.home b = s.home b' → b = b')
    {μ : Mem} (hP : Piece s.home A x μ y s.mem) {K : Nat → Nat → Stack → Prop}
    (hk : ∀ a ∈ x.trace μ, match a with
      | .load p n => ∀ i, In p n p.buf i → ∀ st, K (s.home p.buf) i st → ∃ st', st.read p.buf = some st' ∧ K (s.home p.buf) i st'
      | .store p n => ∀ i, In p n p.buf i → ∀ st, K (s.home p.buf) i st → ∃ st', st.write p.buf = some st' ∧ K (s.home p.buf) i st')
    (h0 : ∀ b i, K b i (s.stack b i)) :
    Sim (prog x s) (y.run s.mem) (fun a b s' => R a b ∧ s'.next = s.next ∧ s'.frame = s.frame ∧ s'.home = s.home ∧ ∀ b i, K b i (s'.stack b i))
      (fun s' => s'.next = s.next ∧ s'.frame = s.frame ∧ s'.home = s.home ∧ ∀ b i, K b i (s'.stack b i)) := by
  induction x generalizing y μ s with
  | pure a => cases y <;> first | exact ⟨rfl, h, rfl, rfl, rfl, h0⟩ | exact absurd rfl hP.safe' | exact h.elim
  | err => cases y <;> first | exact ⟨rfl, rfl, rfl, rfl, h0⟩ | exact absurd rfl hP.safe' | exact h.elim
  | panic => cases y <;> first | trivial | exact absurd rfl hP.safe' | exact h.elim
  | ub => exact absurd rfl hP.safe
  | load p n k ih =>
    cases y with
    | load p' n' k' =>
      obtain ⟨rfl, rfl, h⟩ := h
      obtain ⟨hs, hc, ht, hn, hx, hy⟩ := hP
      have hr : s.mem.read ⟨s.home p.buf, p.off⟩ n' = μ.read p n' := by
        unfold Mem.read
        dsimp only
        rw [hs, readFrom_ren n' p.off fun i h1 h2 => hc _ _ (ht (.load p n') (by simp [Prog.trace]) _ _ ⟨rfl, h1, h2⟩)]
      have hl : ∀ b i, In (place s p) n' b i → ∀ st, K b i st → ∃ st', st.read p.buf = some st' ∧ K b i st' := by
        rintro b i ⟨rfl, h1, h2⟩
        exact hk (.load p n') (by simp [Prog.trace]) i ⟨rfl, h1, h2⟩
      obtain ⟨S, e1, e2, e3⟩ := touch_ok (s := s) (f := Stack.read p.buf) (p := p) (n := n') fun b i hi => by
        obtain ⟨st', h, -⟩ := hl b i hi _ (h0 b i); rw [h]; rfl
      simp only [Prog.trace, Prog.run, hr, prog, e1] at hx hy ht hk ⊢
      cases hr' : μ.read p n' with
      | none => rw [hr'] at hx; exact absurd rfl hx
      | some bs =>
        rw [hr'] at hx hy ht hk
        exact ih bs (s := { s with stack := S }) (h bs) hA ⟨hs, hc, ht.tail, And.right hn bs, hx, hy⟩ (fun a ha => hk a (.tail _ ha)) fun b i => by
          by_cases hi : In (place s p) n' b i
          · obtain ⟨st', h1, h2⟩ := hl b i hi _ (h0 b i)
            have := e2 b i hi
            rw [h1] at this; cases this; exact h2
          · show K b i (S b i)
            rw [e3 b i hi]; exact h0 b i
    | ub => exact absurd rfl hP.safe'
    | _ => exact h.elim
  | store p bs k ih =>
    cases y with
    | store p' bs' k' =>
      obtain ⟨rfl, rfl, h⟩ := h
      obtain ⟨hs, hc, ht, hn, hx, hy⟩ := hP
      have hl : ∀ b i, In (place s p) bs'.length b i → ∀ st, K b i st → ∃ st', st.write p.buf = some st' ∧ K b i st' := by
        rintro b i ⟨rfl, h1, h2⟩
        exact hk (.store p bs'.length) (by simp [Prog.trace]) i ⟨rfl, h1, h2⟩
      obtain ⟨S, e1, e2, e3⟩ := touch_ok (s := s) (f := Stack.write p.buf) (p := p) (n := bs'.length) fun b i hi => by
        obtain ⟨st', h, -⟩ := hl b i hi _ (h0 b i); rw [h]; rfl
      simp only [Prog.trace, Prog.run, hs, prog, e1] at hx hy ht hk ⊢
      split at hx
      · rename_i hb
        rw [if_pos hb] at hy ht hk ⊢
        rw [if_pos hb]
        have hp : ∀ i, p.off ≤ i → i < p.off + bs'.length → A p.buf i := fun i h1 h2 => ht (.store p bs'.length) (.head _) _ _ ⟨rfl, h1, h2⟩
        exact ih (s := { s with stack := S, mem := s.mem.write ⟨s.home p.buf, p.off⟩ bs' }) h hA (μ := μ.write p bs')
          ⟨hs, (fun b i ha => by
            simp only [Mem.write]
            by_cases hi : p.off ≤ i ∧ i < p.off + bs'.length
            · by_cases hb : b = p.buf
              · simp [hb, hi]
              · have : s.home b ≠ s.home p.buf := fun e => hb (hA _ _ _ ha (hp i hi.1 hi.2) e)
                simp [hb, this, hc b i ha]
            · rw [if_neg (by omega), if_neg (by omega), hc b i ha]), ht.tail, And.right hn, hx, hy⟩ (fun a ha => hk a (.tail _ ha)) fun b i => by
          by_cases hi : In (place s p) bs'.length b i
          · obtain ⟨st', h1, h2⟩ := hl b i hi _ (h0 b i)
            have := e2 b i hi
            rw [h1] at this; cases this; exact h2
          · show K b i (S b i)
            rw [e3 b i hi]; exact h0 b i
      · exact absurd rfl hx
    | ub => exact absurd rfl hP.safe'
    | _ => exact h.elim
  | chk p k ih =>
    cases y with
    | chk p' k' =>
      obtain ⟨rfl, h⟩ := h
      obtain ⟨hs, hc, ht, hn, hx, hy⟩ := hP
      simp only [Prog.trace, Prog.run, hs, prog] at hx hy ht hk ⊢
      split at hx
      · rename_i hb
        rw [if_pos hb] at hy ht hk ⊢
        rw [if_pos hb]
        exact ih h hA ⟨hs, hc, ht, hn, hx, hy⟩ hk h0
      · exact absurd rfl hx
    | ub => exact absurd rfl hP.safe'
    | _ => exact h.elim
  | alloc n k ih => exact False.elim hP.noalloc

namespace Piece
variable {ρ : Nat → Nat} {A : Nat → Nat → Prop} {μ M : Mem}

unseal Uses in
theorem _root_.Simd.NoAlloc.head {x : Prog α} {f : α → Prog β} (h : NoAlloc (x >>= f)) : NoAlloc x := by
  change NoAlloc (Prog.bind x f) at h
  induction x with
  | load p n k ih => exact ⟨trivial, fun bs => ih bs (And.right h bs)⟩
  | store p bs k ih => exact ⟨trivial, ih (And.right h)⟩
  | chk p k ih => exact ih h
  | alloc n k ih => exact False.elim h
  | _ => trivial

unseal Uses in
theorem _root_.Simd.NoAlloc.tail {x : Prog α} {f : α → Prog β} (h : NoAlloc (x >>= f)) {m m' : Mem} {a : α} (hx : x.run m = .ok a m') : NoAlloc (f a) := by
  change NoAlloc (Prog.bind x f) at h
  induction x generalizing m with
  | pure a => cases hx; exact h
  | load p n k ih =>
    simp only [Prog.run] at hx
    split at hx
    · exact ih _ hx (And.right h _)
    · cases hx
  | store p bs k ih =>
    simp only [Prog.run] at hx
    split at hx
    · exact ih hx (And.right h)
    · cases hx
  | chk p k ih =>
    simp only [Prog.run] at hx
    split at hx
    · exact ih hx h
    · cases hx
  | alloc n k ih => exact False.elim h
  | _ => cases hx

theorem head {x y : Prog α} {f g : α → Prog β} (h : Piece ρ A (x >>= f) μ (y >>= g) M) : Piece ρ A x μ y M := by
  refine ⟨h.size, h.cell, fun a ha => h.inside a ?_, h.noalloc.head, fun e => h.safe ?_, fun e => h.safe' ?_⟩
  · show a ∈ (Prog.bind x f).trace μ
    rw [trace_bind]; exact List.mem_append_left _ ha
  · rw [run_bind, e]
  · rw [run_bind, e]

unseal Ren Uses in
/-- Memory stays related. -/
theorem steps {R : α → α → Prop} {x y : Prog α} (h : Ren ρ R x y) (hA : ∀ b b' i, A b i → A b' i → ρ b = ρ b' → b = b') (hP : Piece ρ A x μ y M) {b : α} {M' : Mem}
    (hy : y.run M = .ok b M') : ∃ a μ', x.run μ = .ok a μ' ∧ R a b ∧ (∀ b, M'.size (ρ b) = μ'.size b) ∧ ∀ b i, A b i → M'.cell (ρ b) i = μ'.cell b i := by
  induction x generalizing y μ M with
  | pure a => cases y <;> first | (cases hy; exact ⟨a, μ, rfl, h, hP.size, hP.cell⟩) | exact absurd rfl hP.safe' | exact h.elim
  | err => cases y <;> first | exact absurd rfl hP.safe' | exact h.elim | cases hy
  | panic => cases y <;> first | exact absurd rfl hP.safe' | exact h.elim | cases hy
  | ub => exact absurd rfl hP.safe
  | load p n k ih =>
    cases y with
    | load p' n' k' =>
      obtain ⟨rfl, rfl, h⟩ := h
      obtain ⟨hs, hc, ht, hn, hx, hy'⟩ := hP
      have hr : M.read ⟨ρ p.buf, p.off⟩ n' = μ.read p n' := by
        unfold Mem.read
        dsimp only
        rw [hs, readFrom_ren n' p.off fun i h1 h2 => hc _ _ (ht (.load p n') (by simp [Prog.trace]) _ _ ⟨rfl, h1, h2⟩)]
      simp only [Prog.trace, Prog.run, hr] at hx hy hy' ht ⊢
      cases hr' : μ.read p n' with
      | none => rw [hr'] at hx; exact absurd rfl hx
      | some bs =>
        rw [hr'] at hx hy hy' ht
        exact ih bs (h bs) ⟨hs, hc, ht.tail, And.right hn bs, hx, hy'⟩ hy
    | ub => exact absurd rfl hP.safe'
    | _ => exact h.elim
  | store p bs k ih =>
    cases y with
    | store p' bs' k' =>
      obtain ⟨rfl, rfl, h⟩ := h
      obtain ⟨hs, hc, ht, hn, hx, hy'⟩ := hP
      simp only [Prog.trace, Prog.run, hs] at hx hy hy' ht ⊢
      split at hx
      · rename_i hb
        rw [if_pos hb] at hy hy' ht
        have hp : ∀ i, p.off ≤ i → i < p.off + bs'.length → A p.buf i := fun i h1 h2 => ht (.store p bs'.length) (.head _) _ _ ⟨rfl, h1, h2⟩
        rw [if_pos hb]
        refine ih h (μ := μ.write p bs') (M := M.write ⟨ρ p.buf, p.off⟩ bs') ⟨hs, fun b i ha => ?_, ht.tail, And.right hn, hx, hy'⟩ hy
        simp only [Mem.write]
        by_cases hi : p.off ≤ i ∧ i < p.off + bs'.length
        · by_cases hb : b = p.buf
          · simp [hb, hi]
          · have : ρ b ≠ ρ p.buf := fun e => hb (hA _ _ _ ha (hp i hi.1 hi.2) e)
            simp [hb, this, hc b i ha]
        · rw [if_neg (by omega), if_neg (by omega), hc b i ha]
      · exact absurd rfl hx
    | ub => exact absurd rfl hP.safe'
    | _ => exact h.elim
  | chk p k ih =>
    cases y with
    | chk p' k' =>
      obtain ⟨rfl, h⟩ := h
      obtain ⟨hs, hc, ht, hn, hx, hy'⟩ := hP
      simp only [Prog.trace, Prog.run, hs] at hx hy hy' ht ⊢
      split at hx
      · rename_i hb
        rw [if_pos hb] at hy hy' ht
        rw [if_pos hb]
        exact ih h ⟨hs, hc, ht, hn, hx, hy'⟩ hy
      · exact absurd rfl hx
    | ub => exact absurd rfl hP.safe'
    | _ => exact h.elim
  | alloc n k ih => exact False.elim hP.noalloc

theorem next {R : α → α → Prop} {x y : Prog α} {f g : α → Prog β} (h : Ren ρ R x y) (hA : ∀ b b' i, A b i → A b' i → ρ b = ρ b' → b = b')
    (hP : Piece ρ A (x >>= f) μ (y >>= g) M) {b : α} {M' : Mem} (hy : y.run M = .ok b M') : ∃ a μ', R a b ∧ Piece ρ A (f a) μ' (g b) M' := by
  obtain ⟨a, μ', h1, h2, h3, h4⟩ := steps h hA hP.head hy
  refine ⟨a, μ', h2, h3, h4, fun c hc => hP.inside c ?_, hP.noalloc.tail h1, fun e => hP.safe ?_, fun e => hP.safe' ?_⟩
  · show c ∈ (Prog.bind x f).trace μ
    rw [trace_bind, h1]; exact List.mem_append_right _ hc
  · rw [run_bind, h1]; exact e
  · rw [run_bind, hy]; exact e

end Piece

end Simd.Borrow
