import Verif.Lemmas.TreeBorrows
/-
Borrow trees: what a sequence of steps does to the trees of the caller's memory.
-/
namespace Simd.Tree
open Spec
open Borrow (Piece Good1 Good2 inj1 inj2)

variable {α β : Type}

open Classical in
/-- Loans of which the first `n` bytes at `P` are given by `l`. -/
noncomputable def over (P : Ptr) (n : Nat) (l : Loan) (G : Nat → Nat → Loan) (b i : Nat) : Loan := if In P n b i then l else G b i

theorem over_in {P : Ptr} {n : Nat} {l : Loan} {G : Nat → Nat → Loan} {b i : Nat} (h : In P n b i) : over P n l G b i = l := if_pos h
theorem over_out {P : Ptr} {n : Nat} {l : Loan} {G : Nat → Nat → Loan} {b i : Nat} (h : ¬ In P n b i) : over P n l G b i = G b i := if_neg h

/-- Nothing is lent. -/
def nothing (_ _ : Nat) : Loan := .none

/-- What the body of a function with a source and a destination has been lent. -/
noncomputable abbrev G2 (P : Ptr) (n t : Nat) (Q : Ptr) (d u : Nat) : Nat → Nat → Loan := over P n (.shared t) (over Q d (.excl u) nothing)
/-- What a function that works in place has been lent. -/
noncomputable abbrev G1 (P : Ptr) (n t : Nat) : Nat → Nat → Loan := over P n (.excl t) nothing
/-- What a function that only reads has been lent. -/
noncomputable abbrev G0 (P : Ptr) (n t : Nat) : Nat → Nat → Loan := over P n (.shared t) nothing

/-- The loan is one of tag `t`. -/
def Of (t : Nat) (l : Loan) : Prop := l = .shared t ∨ l = .excl t

theorem over_tag {P : Ptr} {n m : Nat} {l : Loan} {G : Nat → Nat → Loan} (hl : ∀ t, Of t l → t < m) (hG : ∀ b i t, Of t (G b i) → t < m) (b i t : Nat) (h : Of t (over P n l G b i)) : t < m := by
  by_cases hi : In P n b i
  · rw [over_in hi] at h; exact hl t h
  · rw [over_out hi] at h; exact hG b i t h

theorem nothing_tag {m : Nat} (b i t : Nat) (h : Of t (nothing b i)) : t < m := by rcases h with h | h <;> cases h
theorem excl_tag {m p : Nat} (hp : p < m) (t : Nat) (h : Of t (.excl p)) : t < m := by rcases h with h | h <;> cases h; exact hp
theorem shared_tag {m p : Nat} (hp : p < m) (t : Nat) (h : Of t (.shared p)) : t < m := by rcases h with h | h <;> cases h; exact hp

theorem tag0 {P : Ptr} {n m p : Nat} (hp : p < m) : ∀ b i t, Of t (G0 P n p b i) → t < m := over_tag (shared_tag hp) nothing_tag
theorem tag1 {P : Ptr} {n m p : Nat} (hp : p < m) : ∀ b i t, Of t (G1 P n p b i) → t < m := over_tag (excl_tag hp) nothing_tag
theorem tag2 {P Q : Ptr} {n d m p q : Nat} (hp : p < m) (hq : q < m) : ∀ b i t, Of t (G2 P n p Q d q b i) → t < m := over_tag (shared_tag hp) (over_tag (excl_tag hq) nothing_tag)

/-- The tags lent have been given out. -/
macro "tags" : tactic => `(tactic| first | exact tag0 (by assumption) | exact tag1 (by assumption) | exact tag2 (by assumption) (by assumption))

/-! ### One byte -/

/-- After an access through `t`, another one through `t` that would have been allowed before is allowed. -/
theorem Cell.step_again {w w' loc prot : Bool} {c c' : Cell} (h : c.step w' loc prot = some c') (hw : (c.step w loc prot).isSome) : (c'.step w loc prot).isSome := by
  obtain ⟨c2, h2⟩ := Option.isSome_iff_exists.1 hw
  cases w <;> cases w'
  · rw [step_idem h]; rfl
  · rw [write_read h]; rfl
  · obtain ⟨c1, e1, e2⟩ := read_first h2
    rw [h] at e1; cases e1; rw [e2]; rfl
  · rw [step_idem h]; rfl

theorem Cell.step_unprot {w loc : Bool} {c : Cell} (h : (c.step w loc true).isSome) : (c.step w loc false).isSome := by
  obtain ⟨q, a⟩ := c
  revert h
  cases w <;> cases loc <;> cases a <;> (first | (cases q with | reserved c => cases c <;> (intro h; first | rfl | cases h) | _ => (intro h; first | rfl | cases h)))

theorem Accessed.trans {s : State} {w w' : Bool} {t b : Nat} {c c1 c2 : Nat → Cell} (h : Accessed s w t b c c1) (h' : Accessed s w' t b c1 c2) : Accessed s (w || w') t b c c2 := fun u hu => by
  have e := h u hu
  have e' := h' u hu
  cases w <;> cases w'
  · rw [Cell.step_idem e] at e'; rw [← Option.some.inj e']; exact e
  · exact Cell.read_write e e'
  · rw [Cell.write_read e] at e'; rw [← Option.some.inj e']; exact e
  · rw [Cell.step_idem e] at e'; rw [← Option.some.inj e']; exact e

theorem Accessed.again {s : State} {w : Bool} {t b : Nat} {c c1 : Nat → Cell} (h : Accessed s w t b c c1) : Accessed s w t b c1 c1 := fun u hu => Cell.step_idem (h u hu)

theorem Same.left {s : State} {w : Bool} {t b : Nat} {c c1 c2 : Nat → Cell} (h : Same s b c c1) (h' : Accessed s w t b c1 c2) : Accessed s w t b c c2 := fun u hu => by rw [← h u hu]; exact h' u hu
theorem Accessed.right {s : State} {w : Bool} {t b : Nat} {c c1 c2 : Nat → Cell} (h : Accessed s w t b c c1) (h' : Same s b c1 c2) : Accessed s w t b c c2 := fun u hu => by rw [h' u hu]; exact h u hu

namespace CellAfter
variable {s : State} {l : Loan} {b t : Nat} {c c1 c2 : Nat → Cell}

theorem refl (s : State) (l : Loan) (b : Nat) (c : Nat → Cell) : CellAfter s l b c c := .inl fun _ _ => rfl

/-- An access of the kind that the loan allows. -/
theorem of {w : Bool} (h : Accessed s w t b c c1) (hl : l = .excl t ∨ l = .shared t ∧ w = false) : CellAfter s l b c c1 := by
  rcases hl with rfl | ⟨rfl, rfl⟩
  · cases w
    · exact .inr (.inl h)
    · exact .inr (.inr h)
  · exact .inr h

theorem cases' (h : CellAfter s l b c c1) : Same s b c c1 ∨ ∃ w t, Accessed s w t b c c1 ∧ (l = .excl t ∨ l = .shared t ∧ w = false) := by
  rcases h with h | h
  · exact .inl h
  · cases l with
    | none => exact h.elim
    | shared t => exact .inr ⟨false, t, h, .inr ⟨rfl, rfl⟩⟩
    | excl t => exact .inr (h.elim (fun h => ⟨_, t, h, .inl rfl⟩) fun h => ⟨_, t, h, .inl rfl⟩)

theorem step {w : Bool} (h : CellAfter s l b c c1) (h' : Accessed s w t b c1 c2) (hl : l = .excl t ∨ l = .shared t ∧ w = false) : CellAfter s l b c c2 := by
  rcases h.cases' with h | ⟨w', t', h, hl'⟩
  · exact of (h.left h') hl
  · have e : t' = t := by
      rcases hl with rfl | ⟨rfl, -⟩ <;> rcases hl' with e | ⟨e, -⟩ <;> cases e <;> rfl
    subst e
    refine of (h.trans h') ?_
    rcases hl with rfl | ⟨rfl, rfl⟩
    · exact .inl rfl
    · rcases hl' with e | ⟨e, rfl⟩
      · cases e
      · exact .inr ⟨rfl, rfl⟩

theorem trans (h : CellAfter s l b c c1) (h' : CellAfter s l b c1 c2) : CellAfter s l b c c2 := by
  rcases h'.cases' with h' | ⟨w', t', h', hl'⟩
  · rcases h.cases' with h | ⟨w, t, h, hl⟩
    · exact .inl fun u hu => (h' u hu).trans (h u hu)
    · exact of (h.right h') hl
  · exact h.step h' hl'

/-- What the lender may do before, it may do after. -/
theorem allowed (h : CellAfter s l b c c1) {w : Bool} (hl : l = .none ∨ Of t l) {u : Nat} (hu : s.Has b u) (hw : ((c u).step w (s.up t u) (s.prot u)).isSome) :
    ((c1 u).step w (s.up t u) (s.prot u)).isSome := by
  rcases h.cases' with h | ⟨w', t', h, hl'⟩
  · rw [h u hu]; exact hw
  · have e : t' = t := by
      rcases hl with rfl | rfl | rfl <;> rcases hl' with e | ⟨e, -⟩ <;> cases e <;> rfl
    subst e
    exact Cell.step_again (h u hu) hw

theorem mono (h : CellAfter s l b c c1) {l' : Loan} (hl : l = .none ∨ l = l' ∨ ∃ t, l = .shared t ∧ l' = .excl t) : CellAfter s l' b c c1 := by
  rcases hl with rfl | rfl | ⟨t, rfl, rfl⟩
  · exact .inl (h.elim id False.elim)
  · exact h
  · exact h.elim .inl fun h => .inr (.inl h)

end CellAfter

/-! ### Sequences of steps -/

theorem prot_eq {s s1 : State} (h : s1.guard = s.guard) (u : Nat) : s1.prot u = s.prot u := by unfold State.prot; rw [h]

theorem AfterCall.place {s s1 : State} {G : Nat → Nat → Loan} (h : AfterCall s s1 G) {p : Ptr} (hp : p.buf < s.next) : place s1 p = place s p := by
  unfold Tree.place; rw [h.home _ hp]

theorem AfterCall.has {s s1 : State} {G : Nat → Nat → Loan} (h : AfterCall s s1 G) {b u : Nat} (hu : s.Has b u) : s1.Has b u :=
  ⟨Nat.lt_of_lt_of_le hu.1 h.next, (h.home u hu.1).trans hu.2⟩

/-- How the second of two steps may be lent a byte, if the byte has been lent as `l` for both: in the same way, or with a tag that the first step made. -/
def Fits (s s1 : State) (l l' : Loan) : Prop :=
  l' = .none ∨ l' = l ∨ (∃ t, l = .excl t ∧ l' = .shared t) ∨ (∃ t r, (l = .excl t ∨ l = .shared t) ∧ l' = .shared r ∧ Made s s1 t r) ∨ ∃ t r, l = .excl t ∧ l' = .excl r ∧ Made s s1 t r

namespace AfterCall
variable {s s1 s2 : State} {G G' : Nat → Nat → Loan}

theorem refl (hs : Sound s) (G : Nat → Nat → Loan) : AfterCall s s G :=
  ⟨hs, Nat.le_refl _, rfl, fun t ht => by
    cases h : s.prot t
    · rfl
    · exact absurd (hs.guard t h) (by omega), fun _ _ => rfl, fun _ _ => rfl, Nat.le_refl _, fun _ _ _ => rfl, fun _ _ _ => rfl, fun _ _ => rfl, fun _ _ => .refl ..⟩

theorem weaken' (h : AfterCall s s1 G) (hG : ∀ b i, G b i = .none ∨ G b i = G' b i ∨ ∃ t, G b i = .shared t ∧ G' b i = .excl t) : AfterCall s s1 G' :=
  ⟨h.sound, h.next, h.guard, h.fresh, h.home, h.up, h.nbuf, h.size, h.live, h.kept, fun b i => (h.cell b i).mono (hG b i)⟩

theorem weaken (h : AfterCall s s1 G) (hG : ∀ b i, G b i = .none ∨ G b i = G' b i) : AfterCall s s1 G' := h.weaken' fun b i => (hG b i).imp id .inl

/-- One step after another: the second one may use tags that the first one made, and may do what it likes with allocations that the first one made. -/
theorem pushN (h1 : AfterCall s s1 G) (h2 : AfterCall s1 s2 G') (ht : ∀ b i t, Of t (G b i) → t < s.next) (hG : ∀ b i u, s.Has b u → Fits s s1 (G b i) (G' b i)) : AfterCall s s2 G := by
  refine ⟨h2.sound, Nat.le_trans h1.next h2.next, h2.guard.trans h1.guard, fun t ht => ?_, fun t ht => (h2.home t (Nat.lt_of_lt_of_le ht h1.next)).trans (h1.home t ht),
    fun t ht => (h2.up t (Nat.lt_of_lt_of_le ht h1.next)).trans (h1.up t ht), Nat.le_trans h1.nbuf h2.nbuf,
    fun b u hb => (h2.size b u (h1.has hb)).trans (h1.size b u hb), fun b u hb => (h2.live b u (h1.has hb)).trans (h1.live b u hb),
    fun b hb => (h2.kept b (Nat.lt_of_lt_of_le hb h1.nbuf)).trans (h1.kept b hb), fun b i => ?_⟩
  · rw [prot_eq h2.guard]; exact h1.fresh t ht
  by_cases hb : ∃ u, s.Has b u
  case neg => exact .inl fun u hu => absurd ⟨u, hu⟩ hb
  obtain ⟨u₀, hb⟩ := hb
  have a1 := h1.cell b i
  have key : ∀ {w : Bool} {t r : Nat}, (∀ u, u < s.next → s1.up r u = s.up t u) → Accessed s1 w r b (s1.cell b i) (s2.cell b i) → Accessed s w t b (s1.cell b i) (s2.cell b i) :=
    fun {w t r} hup h u hu => by
      have := h u (h1.has hu)
      rw [hup u hu.1, prot_eq h1.guard] at this
      exact this
  rcases (h2.cell b i).cases' with h | ⟨w, r, h, hl⟩
  · have h : Same s b (s1.cell b i) (s2.cell b i) := fun u hu => h u (h1.has hu)
    rcases a1.cases' with a | ⟨w, t, a, hl⟩
    · exact .inl fun u hu => (h u hu).trans (a u hu)
    · exact .of (a.right h) hl
  · have old : ∀ {t : Nat}, t < s.next → ∀ u, u < s.next → s1.up t u = s.up t u := fun ht u _ => by rw [h1.up _ ht]
    rcases hG b i u₀ hb with e | e | ⟨t, e, e'⟩ | ⟨t, r', e, e', m⟩ | ⟨t, r', e, e', m⟩
    · rw [e] at hl; rcases hl with hl | ⟨hl, -⟩ <;> cases hl
    · rw [e] at hl
      exact a1.step (key (old (ht b i r (hl.elim .inr fun h => .inl h.1))) h) hl
    · rw [e'] at hl
      rcases hl with hl | ⟨hl, rfl⟩
      · cases hl
      · cases hl
        exact a1.step (key (old (ht b i r (.inr e))) h) (.inl e)
    · rw [e'] at hl
      rcases hl with hl | ⟨hl, rfl⟩
      · cases hl
      · cases hl
        exact a1.step (key m.line h) (e.imp id fun e => ⟨e, rfl⟩)
    · rw [e'] at hl
      rcases hl with hl | ⟨hl, rfl⟩
      · cases hl
        exact a1.step (key m.line h) (.inl e)
      · cases hl

theorem push (h1 : AfterCall s s1 G) (h2 : AfterCall s1 s2 G') (ht : ∀ b i t, Of t (G b i) → t < s.next) (hG : ∀ b i, Fits s s1 (G b i) (G' b i)) : AfterCall s s2 G :=
  h1.pushN h2 ht fun b i _ _ => hG b i

theorem trans (h1 : AfterCall s s1 G) (h2 : AfterCall s1 s2 G) (ht : ∀ b i t, Of t (G b i) → t < s.next := by tags) : AfterCall s s2 G := h1.push h2 ht fun _ _ => .inr (.inl rfl)

theorem allowed (h : AfterCall s s1 G) {w : Bool} {t b i : Nat} (ht : s.Has b t) (hG : G b i = .none ∨ Of t (G b i)) (ha : Allowed s w t b i) : Allowed s1 w t b i := by
  refine ⟨by rw [h.size b t ht]; exact ha.1, by rw [h.live b t ht]; exact ha.2.1, fun u hu => ?_⟩
  by_cases hn : u < s.next
  · have hu' : s.Has b u := ⟨hn, (h.home u hn).symm.trans hu.2⟩
    have := (h.cell b i).allowed hG hu' (ha.2.2 u hu')
    unfold State.step
    rw [h.up t ht.1, prot_eq h.guard]; exact this
  · unfold State.step
    rw [h.fresh u (by omega)]
    cases e : s1.up t u
    · exact Cell.step_foreign _
    · exact absurd (h.sound.old t u (Nat.lt_of_lt_of_le ht.1 h.next) e) (by have := ht.1; omega)

theorem readable (h : AfterCall s s1 G) {p : Ptr} {n : Nat} (hG : ∀ b i, In (Tree.place s p) n b i → G b i = .none ∨ Of p.buf (G b i)) (hr : Readable s p n) : Readable s1 p n :=
  ⟨Nat.lt_of_lt_of_le hr.1 h.next, fun b i hi => by
    rw [AfterCall.place h hr.1] at hi
    exact h.allowed ⟨hr.1, hi.1.symm⟩ (hG b i hi) (hr.2 b i hi)⟩

theorem mutable (h : AfterCall s s1 G) {p : Ptr} {n : Nat} (hG : ∀ b i, In (Tree.place s p) n b i → G b i = .none ∨ Of p.buf (G b i)) (hr : Mutable s p n) : Mutable s1 p n :=
  ⟨Nat.lt_of_lt_of_le hr.1 h.next, fun b i hi => by
    rw [AfterCall.place h hr.1] at hi
    exact h.allowed ⟨hr.1, hi.1.symm⟩ (hG b i hi) (hr.2 b i hi)⟩

end AfterCall

theorem Mutable.readable {s : State} {p : Ptr} {n : Nat} (h : Mutable s p n) : Readable s p n := ⟨h.1, fun b i hi => ⟨(h.2 b i hi).1, (h.2 b i hi).2.1, fun u hu => by
  obtain ⟨c, hc⟩ := Option.isSome_iff_exists.1 ((h.2 b i hi).2.2 u hu)
  obtain ⟨c1, h1, -⟩ := Cell.read_first hc
  show (Cell.step _ _ _ _).isSome
  rw [h1]; rfl⟩⟩

theorem Mutable.mono {s : State} {p : Ptr} {n m : Nat} (h : Mutable s p n) (hm : m ≤ n) : Mutable s p m := ⟨h.1, fun b i hi => h.2 b i (in_mono hm hi)⟩
theorem Readable.mono {s : State} {p : Ptr} {n m : Nat} (h : Readable s p n) (hm : m ≤ n) : Readable s p m := ⟨h.1, fun b i hi => h.2 b i (in_mono hm hi)⟩

/-! ### Retags -/

/-- `r` was made from `p`. -/
structure Derived (s s' : State) (p r : Ptr) : Prop extends Made s s' p.buf r.buf where
  off : r.off = p.off
  home : s'.home r.buf = s.home p.buf

theorem Derived.place {s s' : State} {p r : Ptr} (h : Derived s s' p r) : place s' r = place s p := by
  unfold Tree.place; rw [h.home, h.off]

namespace Retagged
variable {s s1 s2 : State} {prot : Bool} {k : Kind} {p : Ptr} {n : Nat}

theorem home_new (h : Retagged s s1 prot k p n) : s1.home s.next = s.home p.buf := by rw [h.home]; exact if_pos rfl
theorem home_old (h : Retagged s s1 prot k p n) {t : Nat} (ht : t < s.next) : s1.home t = s.home t := by rw [h.home]; exact if_neg (by omega)
theorem place_new (h : Retagged s s1 prot k p n) : place s1 ⟨s.next, p.off⟩ = place s p := by unfold place; rw [h.home_new]
theorem place_old (h : Retagged s s1 prot k p n) {q : Ptr} (hq : q.buf < s.next) : place s1 q = place s q := by unfold place; rw [h.home_old hq]
theorem up_new (h : Retagged s s1 prot k p n) (u : Nat) : s1.up s.next u = (decide (u = s.next) || s.up p.buf u) := by rw [h.up]; exact if_pos rfl
theorem up_old (h : Retagged s s1 prot k p n) {t : Nat} (ht : t < s.next) : s1.up t = s.up t := by rw [h.up]; funext u; exact if_neg (by omega)
theorem has (h : Retagged s s1 prot k p n) {b u : Nat} (hu : s.Has b u) : s1.Has b u := ⟨by have := h.next; have := hu.1; omega, (h.home_old hu.1).trans hu.2⟩

theorem derived (h : Retagged s s1 prot k p n) : Derived s s1 p ⟨s.next, p.off⟩ :=
  ⟨⟨Nat.le_refl _, by rw [h.next]; exact Nat.lt_succ_self _, fun u hu => by
    rw [h.up_new, decide_eq_false (by omega)]; rfl⟩, rfl, h.home_new⟩

theorem prot_old (h : Retagged s s1 prot k p n) {u : Nat} (hu : u ≠ s.next) : s1.prot u = s.prot u := by
  unfold State.prot
  rw [h.guard]
  split
  · rename_i l g hg
    rw [hg]
    simp only [List.any_cons, List.contains_cons]
    rw [beq_false_of_ne hu, Bool.false_or]
  · rfl

theorem sound (h : Retagged s s1 prot k p n) (hs : Sound s) (hp : p.buf < s.next) : Sound s1 := by
  have hn := h.next
  refine ⟨fun u hu => ?_, fun t ht => ?_, fun t ht => ?_, fun t u ht hu => ?_, fun t u ht hu => ?_, fun t u v ht hu hv => ?_, fun t u v ht hu hv => ?_⟩
  · by_cases e : u = s.next
    · omega
    · rw [h.prot_old e] at hu; have := hs.guard u hu; omega
  · rw [h.mem]
    by_cases e : t = s.next
    · subst e; rw [h.home_new]; exact hs.alloc _ hp
    · rw [h.home_old (by omega)]; exact hs.alloc t (by omega)
  · by_cases e : t = s.next
    · subst e; rw [h.up_new, decide_eq_true rfl]; rfl
    · rw [h.up_old (by omega)]; exact hs.self t (by omega)
  · by_cases e : t = s.next
    · subst e; rw [h.up_new, Bool.or_eq_true, decide_eq_true_iff] at hu
      rcases hu with rfl | hu
      · exact Nat.le_refl _
      · have := hs.old _ u hp hu; omega
    · rw [h.up_old (by omega)] at hu; exact hs.old t u (by omega) hu
  · by_cases e : t = s.next
    · subst e; rw [h.up_new, Bool.or_eq_true, decide_eq_true_iff] at hu
      rcases hu with rfl | hu
      · rfl
      · have := hs.old _ u hp hu
        rw [h.home_old (by omega), h.home_new]; exact hs.home _ u hp hu
    · rw [h.up_old (by omega)] at hu
      have := hs.old t u (by omega) hu
      rw [h.home_old (by omega), h.home_old (by omega)]; exact hs.home t u (by omega) hu
  · by_cases e : t = s.next
    · subst e; rw [h.up_new, Bool.or_eq_true, decide_eq_true_iff] at hu
      rcases hu with rfl | hu
      · exact hv
      · have := hs.old _ u hp hu
        rw [h.up_old (by omega)] at hv
        rw [h.up_new, hs.trans _ u v hp hu hv, Bool.or_true]
    · rw [h.up_old (by omega)] at hu ⊢
      have := hs.old t u (by omega) hu
      rw [h.up_old (by omega)] at hv
      exact hs.trans t u v (by omega) hu hv
  · by_cases e : t = s.next
    · subst e
      have hu' := hu
      have hv' := hv
      rw [h.up_new, Bool.or_eq_true, decide_eq_true_iff] at hu' hv'
      rcases hu' with rfl | hu'
      · exact .inl hv
      · rcases hv' with rfl | hv'
        · exact .inr hu
        · have := hs.old _ u hp hu'
          have := hs.old _ v hp hv'
          rw [h.up_old (by omega), h.up_old (by omega)]; exact hs.line _ u v hp hu' hv'
    · rw [h.up_old (by omega)] at hu hv
      have := hs.old t u (by omega) hu
      have := hs.old t v (by omega) hv
      rw [h.up_old (by omega), h.up_old (by omega)]; exact hs.line t u v (by omega) hu hv

/-- To the caller's tags, a retag is a read. -/
theorem after (h : Retagged s s1 false k p n) (hs : Sound s) (hp : p.buf < s.next) {l : Loan} (hl : Of p.buf l) : AfterCall s s1 (over (place s p) n l nothing) := by
  have hg : s1.guard = s.guard := by rw [h.guard]
  refine ⟨h.sound hs hp, by rw [h.next]; omega, hg, fun t ht => ?_, fun t ht => h.home_old ht, fun t ht => h.up_old ht, by rw [h.mem], fun b _ _ => by rw [h.mem], fun b _ _ => by rw [h.freed], fun b _ => by rw [h.freed], fun b i => ?_⟩
  · rw [prot_eq hg]
    cases e : s.prot t
    · rfl
    · exact absurd (hs.guard t e) (by omega)
  · by_cases hi : In (place s p) n b i
    · rw [over_in hi]; exact .of (h.inside b i hi) (hl.symm.imp id fun h => ⟨h, rfl⟩)
    · exact .inl (h.outside b i hi)

/-- What may be done through a tag to a byte before, may be done through a new tag made from it. -/
theorem allowed (h : Retagged s s1 prot k p n) (hs : Sound s) (hp : p.buf < s.next) {w : Bool} (hw : w = true → k = .mut) {b i : Nat} (hi : In (place s p) n b i) (ha : Allowed s w p.buf b i) :
    Allowed s1 w s.next b i := by
  refine ⟨by rw [h.mem]; exact ha.1, by rw [h.freed]; exact ha.2.1, fun u hu => ?_⟩
  have hn := h.next
  unfold State.step
  by_cases e : u = s.next
  · subst e
    obtain ⟨h1, h2⟩ := h.new b i
    rw [(h.sound hs hp).self _ (by omega)]
    rcases hc : s1.cell b i s.next with ⟨q, a⟩
    rw [hc] at h1 h2
    dsimp only at h1 h2
    rw [h1, h2.2 hi]
    cases w
    · cases k <;> cases s1.prot s.next <;> rfl
    · rw [hw rfl]; cases s1.prot s.next <;> rfl
  · have hu' : s.Has b u := ⟨by have := hu.1; omega, (h.home_old (by have := hu.1; omega)).symm.trans hu.2⟩
    rw [h.up_new, decide_eq_false e, Bool.false_or, h.prot_old e]
    exact Cell.step_again (h.inside b i hi u hu') (ha.2.2 u hu')

theorem readable (h : Retagged s s1 prot k p n) (hs : Sound s) (hr : Readable s p n) : Readable s1 ⟨s.next, p.off⟩ n := ⟨h.derived.hi, fun b i hi => by
  rw [h.place_new] at hi
  exact h.allowed hs hr.1 (by intro h; cases h) hi (hr.2 b i hi)⟩

theorem mutable (h : Retagged s s1 prot .mut p n) (hs : Sound s) (hr : Mutable s p n) : Mutable s1 ⟨s.next, p.off⟩ n := ⟨h.derived.hi, fun b i hi => by
  rw [h.place_new] at hi
  exact h.allowed hs hr.1 (fun _ => rfl) hi (hr.2 b i hi)⟩

end Retagged

end Simd.Tree
