import Verif.Lemmas.ClientHeap
import Verif.Props.BorrowHeap
import Verif.Lemmas.RefStack
/-
What the steps of a program do to what its variables hold.
-/
namespace Simd.Client
open Borrow Spec

variable {s s' : State} {G : Nat → Nat → Loan} {p : Ptr} {n : Nat}

/-- Nothing but the owner's own tag was used for its memory. -/
def Own (G : Nat → Nat → Loan) (t b n : Nat) : Prop := ∀ i, i < n → G b i = .none ∨ G b i = .shared t ∨ G b i = .excl t

/-- The owner may write all its memory, and nothing in it is protected. -/
def StillOwn (s' : State) (t b n : Nat) : Prop := ∀ i, i < n → ((s'.stack b i).write t).isSome ∧ Free (s'.stack b i)

theorem owns_still (h : AfterCall s s' G) (ho : Owns s p n) {W : Nat → Nat → Prop} (hm : MemAfter s.mem s'.mem W) (hG : StillOwn s' p.buf (s.home p.buf) n) : Owns s' p n := by
  have hh := h.home _ ho.tag
  refine ⟨Nat.lt_of_lt_of_le ho.tag h.next, ho.start, by rw [hh]; exact Nat.lt_of_lt_of_le ho.exists_ hm.nbuf, by rw [hh, hm.size _ ho.exists_]; exact ho.size, fun b i hi => ?_, fun i hi => ?_⟩
  · obtain ⟨rfl, -, h2⟩ := hi
    simp only [place] at h2 ⊢
    rw [hh]
    exact (hG i (by have := ho.start; omega)).1
  · rw [hh]; exact (hG i hi).2

/-- Items of a stack on which there was a loan are not protected if those before were not. -/
theorem _root_.Simd.Spec.AfterCall.free (h : AfterCall s s' G) {b i : Nat} (hf : Free (s.stack b i)) : Free (s'.stack b i) := fun it hit => by
  rcases h.stack b i with e | e
  · rw [e] at hit; exact hf it hit
  · split at e
    · exact e.elim
    · obtain ⟨r, new, e1, e2, e3⟩ := e
      rw [e2] at hit
      rcases List.mem_append.1 hit with h1 | h1
      · exact (e3 it h1).1.2.2
      · obtain ⟨it', h2, -, h3⟩ := Stack.read_mem e1 it h1
        rw [← h3]; exact hf it' h2
    · obtain ⟨r, new, e1, e2, e3⟩ := e
      rw [e2] at hit
      rcases List.mem_append.1 hit with h1 | h1
      · exact (e3 it h1).2.2
      · obtain ⟨w, e4⟩ := Stack.write_suffix e1
        exact hf it (by rw [e4]; exact List.mem_append_right _ h1)
    · exact (e it hit).2.2

theorem Own.still (h : AfterCall s s' G) (ho : Owns s p n) (hG : Own G p.buf (s.home p.buf) n) : StillOwn s' p.buf (s.home p.buf) n := fun i hi => by
  refine ⟨?_, h.free (ho.unprotected i hi)⟩
  refine h.mutable' (p := p) (n := n) ho.tag (fun b i hi => ?_) ho.mutable _ _ ⟨(h.home _ ho.tag).symm, by have := ho.start; simp only [place]; omega, by have := ho.start; simp only [place]; omega⟩
  obtain ⟨rfl, -, h2⟩ := hi
  exact hG i (by have := ho.start; simp only [place] at h2; omega)

theorem freed_after (h : AfterCall s s' G) {b : Nat} (hf : Freed s b) (hs : s'.mem.size b = s.mem.size b) (hG : ∀ i, G b i ≠ .own) : Freed s' b := fun i hi => by
  rw [hs] at hi
  have e := h.stack b i
  rw [hf i hi] at e
  rcases e with e | e
  · exact e
  · split at e
    · exact e.elim
    · obtain ⟨_, _, e, -⟩ := e; exact absurd e nofun
    · obtain ⟨_, _, e, -⟩ := e; exact absurd e nofun
    · rename_i hg; exact absurd hg (hG i)

theorem valid_still {P : Plat} {o : Owned} (h : AfterCall s s' G) (hv : Valid P s o) {W : Nat → Nat → Prop} (hm : MemAfter s.mem s'.mem W)
    (hG : StillOwn s' (ownerOf o).1.buf (s.home (ownerOf o).1.buf) (ownerOf o).2) (hW : IsText o → ∀ i, ¬ W (s.home (ownerOf o).1.buf) i) : Valid P s' o := by
  refine ⟨owns_still h hv.owns hm hG, hv.max, ?_⟩
  obtain ⟨ys, h1, h2, h3⟩ := hv.content
  have hp : place s' (ownerOf o).1 = place s (ownerOf o).1 := by unfold place; rw [h.home _ hv.owns.tag]
  rw [hp]
  by_cases ht : IsText o
  · exact ⟨ys, h1, Reads.kept hm hv.owns.exists_ h2 fun i _ => hW ht _, h3⟩
  · obtain ⟨zs, h4, h5⟩ := Reads.still hm hv.owns.exists_ h2
    exact ⟨zs, h4.trans h1, h5, fun h => absurd h ht⟩

/-- What holds at every step: what the variables hold is valid; no two share an allocation; and whatever they do not hold has been deallocated. -/
structure Inv (P : Plat) (w : World) : Prop where
  sound : Sound w.st
  valid : ∀ x o, w.vars x = some o → Valid P w.st o
  apart : ∀ x y o o', w.vars x = some o → w.vars y = some o' → w.st.home (ownerOf o).1.buf = w.st.home (ownerOf o').1.buf → x = y
  freed : ∀ b, b < w.st.mem.nbuf → (∀ x o, w.vars x = some o → w.st.home (ownerOf o).1.buf ≠ b) → Freed w.st b

theorem inv_start (P : Plat) : Inv P .start := by
  refine ⟨fun _ _ _ h => ?_, fun _ _ h => ?_, fun _ _ _ _ h => ?_, fun _ h => ?_⟩ <;> cases h

variable {P : Plat} {w : World}

theorem Inv.keeps (hI : Inv P w) (h : AfterCall w.st s' G) {W : Nat → Nat → Prop} (hm : MemAfter w.st.mem s'.mem W) {X : Nat → Prop} {vars : Nat → Option Owned} (hv : ∀ y, ¬ X y → vars y = w.vars y)
    (hW : ∀ y o, ¬ X y → w.vars y = some o → ∀ i, ¬ W (w.st.home (ownerOf o).1.buf) i) : Keeps w ⟨vars, s'⟩ X := fun y o hX hy => by
  have hO := (hI.valid y o hy).owns
  refine ⟨(hv y hX).trans hy, fun ys hr => ?_⟩
  have hp : place s' (ownerOf o).1 = place w.st (ownerOf o).1 := by unfold place; rw [h.home _ hO.tag]
  rw [hp]
  exact hr.kept hm hO.exists_ fun i _ => hW y o hX hy _

/-- A step that leaves the variables as they are and allocates nothing. -/
theorem Inv.same' (hI : Inv P w) (h : AfterCall w.st s' G) {W : Nat → Nat → Prop} (hm : MemAfter w.st.mem s'.mem W) (hn : s'.mem.nbuf = w.st.mem.nbuf)
    (hG : ∀ x o, w.vars x = some o → StillOwn s' (ownerOf o).1.buf (w.st.home (ownerOf o).1.buf) (ownerOf o).2) (hO : ∀ b i, G b i ≠ .own)
    {X : Nat → Prop} (hW : ∀ x o, w.vars x = some o → ¬ X x ∨ IsText o → ∀ i, ¬ W (w.st.home (ownerOf o).1.buf) i) : Inv P ⟨w.vars, s'⟩ ∧ Keeps w ⟨w.vars, s'⟩ X := by
  refine ⟨?_, hI.keeps h hm (fun _ _ => rfl) fun y o hX hy => hW y o hy (.inl hX)⟩
  have home : ∀ x o, w.vars x = some o → s'.home (ownerOf o).1.buf = w.st.home (ownerOf o).1.buf := fun x o hx => h.home _ (hI.valid x o hx).owns.tag
  refine ⟨h.sound hI.sound, fun x o hx => valid_still h (hI.valid x o hx) hm (hG x o hx) (fun ht => hW x o hx (.inr ht)), fun x y o o' hx hy e => ?_, fun b hb hf => ?_⟩
  · dsimp only at e hx hy
    rw [home x o hx, home y o' hy] at e
    exact hI.apart x y o o' hx hy e
  · dsimp only at hb hf
    rw [hn] at hb
    exact freed_after h (hI.freed b hb fun x o hx => by rw [← home x o hx]; exact hf x o hx) (hm.size b hb) (hO b)

theorem Inv.same (hI : Inv P w) (h : AfterCall w.st s' G) {W : Nat → Nat → Prop} (hm : MemAfter w.st.mem s'.mem W) (hn : s'.mem.nbuf = w.st.mem.nbuf)
    (hG : ∀ x o, w.vars x = some o → Own G (ownerOf o).1.buf (w.st.home (ownerOf o).1.buf) (ownerOf o).2) (hO : ∀ b i, G b i ≠ .own)
    {X : Nat → Prop} (hW : ∀ x o, w.vars x = some o → ¬ X x ∨ IsText o → ∀ i, ¬ W (w.st.home (ownerOf o).1.buf) i) : Inv P ⟨w.vars, s'⟩ ∧ Keeps w ⟨w.vars, s'⟩ X :=
  hI.same' h hm hn (fun x o hx => (hG x o hx).still h (hI.valid x o hx).owns) hO hW

theorem tag_eq {x : Nat} {o : Owned} (h : w.vars x = some o) : w.tag x = (ownerOf o).1.buf := by
  unfold World.tag; rw [h]

theorem len_le (hI : Inv P w) {x : Nat} {o : Owned} (h : w.vars x = some o) : len o ≤ (ownerOf o).2 := by
  obtain ⟨ys, h1, h2, -⟩ := (hI.valid x o h).content
  have ho := (hI.valid x o h).owns
  have := h2.1
  have e : w.st.mem.size (place w.st (ownerOf o).1).buf = (ownerOf o).2 := ho.size
  omega

/-- A slice of a variable's content can be read. -/
theorem holds_reads (hI : Inv P w) {p : Ptr} {n : Nat} (h : w.Holds p n) : ∃ xs, xs.length = n ∧ Reads w.st.mem (place w.st ⟨w.tag p.buf, p.off⟩) xs := by
  obtain ⟨o, h1, h2⟩ := h
  obtain ⟨ys, h3, h4, -⟩ := (hI.valid _ o h1).content
  obtain ⟨xs, h5, h6⟩ := h4.part (k := p.off) (n := n) (by omega)
  refine ⟨xs, h5, ?_⟩
  have e : (place w.st (ownerOf o).1).off = 0 := (hI.valid _ o h1).owns.start
  rw [e, Nat.zero_add] at h6
  unfold place
  rw [tag_eq h1]
  exact h6

theorem part_mutable (hI : Inv P w) {x : Nat} {o : Owned} (h : w.vars x = some o) {off n : Nat} (hn : off + n ≤ (ownerOf o).2) : Mutable w.st ⟨w.tag x, off⟩ n := fun b i hi => by
  rw [tag_eq h] at hi ⊢
  have ho := (hI.valid x o h).owns
  exact ho.mutable b i ⟨hi.1, by have := ho.start; show (ownerOf o).1.off ≤ i; omega, by have := hi.2.2; have := ho.start; show i < (ownerOf o).1.off + _; simp only [place] at *; omega⟩

theorem part_readable (hI : Inv P w) {x : Nat} {o : Owned} (h : w.vars x = some o) {off n : Nat} (hn : off + n ≤ (ownerOf o).2) : Readable w.st ⟨w.tag x, off⟩ n :=
  fun b i hi => Stack.read_of_write (part_mutable hI h hn b i hi)

/-- A loan of part of a variable's memory, in the memory of another variable. -/
theorem loan_own (hI : Inv P w) {x y : Nat} {o o' : Owned} (hx : w.vars x = some o) (hy : w.vars y = some o') {off n i : Nat}
    (hi : In (place w.st ⟨w.tag y, off⟩) n (w.st.home (ownerOf o).1.buf) i) : y = x ∧ w.tag y = (ownerOf o).1.buf := by
  have e : w.st.home (ownerOf o).1.buf = w.st.home (w.tag y) := hi.1
  rw [tag_eq hy] at e
  obtain rfl := hI.apart x y o o' hx hy e
  exact ⟨rfl, tag_eq hx⟩

/-- A step after which variable `x` holds something else. -/
theorem Inv.assign' (hI : Inv P w) (x : Nat) (no : Option Owned) (h : AfterCall w.st s' G) {W : Nat → Nat → Prop} (hm : MemAfter w.st.mem s'.mem W)
    (hG : ∀ y o, y ≠ x → w.vars y = some o → StillOwn s' (ownerOf o).1.buf (w.st.home (ownerOf o).1.buf) (ownerOf o).2)
    (hO : ∀ b i, b < w.st.mem.nbuf → (∀ o, w.vars x = some o → w.st.home (ownerOf o).1.buf ≠ b) → G b i ≠ .own)
    (hW : ∀ y o, y ≠ x → w.vars y = some o → ∀ i, ¬ W (w.st.home (ownerOf o).1.buf) i)
    (hv : ∀ o', no = some o' → Valid P s' o' ∧ (w.st.mem.nbuf ≤ s'.home (ownerOf o').1.buf ∨ ∃ o, w.vars x = some o ∧ s'.home (ownerOf o').1.buf = w.st.home (ownerOf o).1.buf))
    (hnew : ∀ b, w.st.mem.nbuf ≤ b → b < s'.mem.nbuf → (∀ o', no = some o' → s'.home (ownerOf o').1.buf ≠ b) → Freed s' b)
    (hold : ∀ o, w.vars x = some o → (∀ o', no = some o' → s'.home (ownerOf o').1.buf ≠ w.st.home (ownerOf o).1.buf) → Freed s' (w.st.home (ownerOf o).1.buf)) :
    Inv P ⟨w.set x no, s'⟩ ∧ Keeps w ⟨w.set x no, s'⟩ (· = x) := by
  refine ⟨?_, hI.keeps h hm (fun y hy => if_neg hy) fun y o hne hy => hW y o hne hy⟩
  have home : ∀ x o, w.vars x = some o → s'.home (ownerOf o).1.buf = w.st.home (ownerOf o).1.buf := fun x o hx => h.home _ (hI.valid x o hx).owns.tag
  have hset : ∀ y o, w.set x no y = some o → (y = x ∧ no = some o) ∨ (y ≠ x ∧ w.vars y = some o) := fun y o hy => by
    unfold World.set at hy
    split at hy
    · exact .inl ⟨by assumption, hy⟩
    · exact .inr ⟨by assumption, hy⟩
  have new_ne : ∀ y o o', y ≠ x → w.vars y = some o → no = some o' → s'.home (ownerOf o').1.buf ≠ w.st.home (ownerOf o).1.buf := fun y o o' hne hy hno e => by
    rcases (hv o' hno).2 with h1 | ⟨ox, h1, h2⟩
    · have := (hI.valid y o hy).owns.exists_; omega
    · exact hne (hI.apart y x o ox hy h1 (by rw [← h2, e]))
  refine ⟨h.sound hI.sound, fun y o hy => ?_, fun y z o o' hy hz e => ?_, fun b hb hf => ?_⟩
  · rcases hset y o hy with ⟨-, hno⟩ | ⟨hne, hy⟩
    · exact (hv o hno).1
    · exact valid_still h (hI.valid y o hy) hm (hG y o hne hy) fun _ => hW y o hne hy
  · dsimp only at e
    rcases hset y o hy with ⟨ey, hno⟩ | ⟨hne, hy1⟩ <;> rcases hset z o' hz with ⟨ez, hno'⟩ | ⟨hne', hz1⟩
    · rw [ey, ez]
    · rw [home z o' hz1] at e; exact absurd e (new_ne z o' o hne' hz1 hno)
    · rw [home y o hy1] at e; exact absurd e.symm (new_ne y o o' hne hy1 hno')
    · rw [home y o hy1, home z o' hz1] at e; exact hI.apart y z o o' hy1 hz1 e
  · dsimp only at hb hf
    have hx : ∀ o', no = some o' → s'.home (ownerOf o').1.buf ≠ b := fun o' hno => hf x o' (by unfold World.set; rw [if_pos rfl]; exact hno)
    have hy : ∀ y o, y ≠ x → w.vars y = some o → w.st.home (ownerOf o).1.buf ≠ b := fun y o hne hy => by
      rw [← home y o hy]
      exact hf y o (by unfold World.set; rw [if_neg hne]; exact hy)
    rcases Nat.lt_or_ge b w.st.mem.nbuf with hlt | hge
    · by_cases hh : ∃ o, w.vars x = some o ∧ w.st.home (ownerOf o).1.buf = b
      · obtain ⟨o, h1, rfl⟩ := hh
        exact hold o h1 hx
      · have hh : ∀ o, w.vars x = some o → w.st.home (ownerOf o).1.buf ≠ b := fun o h1 h2 => hh ⟨o, h1, h2⟩
        refine freed_after h (hI.freed b hlt fun y o hy' => ?_) (hm.size b hlt) fun i => hO b i hlt hh
        by_cases hne : y = x
        · subst hne; exact hh o hy'
        · exact hy y o hne hy'
    · exact hnew b hge hb hx

theorem Inv.assign (hI : Inv P w) (x : Nat) (no : Option Owned) (h : AfterCall w.st s' G) {W : Nat → Nat → Prop} (hm : MemAfter w.st.mem s'.mem W)
    (hG : ∀ y o, y ≠ x → w.vars y = some o → Own G (ownerOf o).1.buf (w.st.home (ownerOf o).1.buf) (ownerOf o).2)
    (hO : ∀ b i, b < w.st.mem.nbuf → (∀ o, w.vars x = some o → w.st.home (ownerOf o).1.buf ≠ b) → G b i ≠ .own)
    (hW : ∀ y o, y ≠ x → w.vars y = some o → ∀ i, ¬ W (w.st.home (ownerOf o).1.buf) i)
    (hv : ∀ o', no = some o' → Valid P s' o' ∧ (w.st.mem.nbuf ≤ s'.home (ownerOf o').1.buf ∨ ∃ o, w.vars x = some o ∧ s'.home (ownerOf o').1.buf = w.st.home (ownerOf o).1.buf))
    (hnew : ∀ b, w.st.mem.nbuf ≤ b → b < s'.mem.nbuf → (∀ o', no = some o' → s'.home (ownerOf o').1.buf ≠ b) → Freed s' b)
    (hold : ∀ o, w.vars x = some o → (∀ o', no = some o' → s'.home (ownerOf o').1.buf ≠ w.st.home (ownerOf o).1.buf) → Freed s' (w.st.home (ownerOf o).1.buf)) :
    Inv P ⟨w.set x no, s'⟩ ∧ Keeps w ⟨w.set x no, s'⟩ (· = x) :=
  hI.assign' x no h hm (fun y o hne hy => (hG y o hne hy).still h (hI.valid y o hy).owns) hO hW hv hnew hold

end Simd.Client
