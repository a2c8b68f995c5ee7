import Verif.Lemmas.Borrows
import Verif.Model.BorrowCalls
/-
Borrow stacks after calls: composition, and the functions that turn references into raw pointers.
-/
namespace Simd.Borrow
open Spec

/-- `l` on the `n` bytes at `P`, `G` elsewhere. -/
def over (P : Ptr) (n : Nat) (l : Loan) (G : Nat → Nat → Loan) (b i : Nat) : Loan :=
  if b = P.buf ∧ P.off ≤ i ∧ i < P.off + n then l else G b i

theorem over_in {P : Ptr} {n : Nat} {l : Loan} {G : Nat → Nat → Loan} {b i : Nat} (h : In P n b i) : over P n l G b i = l := if_pos h
theorem over_out {P : Ptr} {n : Nat} {l : Loan} {G : Nat → Nat → Loan} {b i : Nat} (h : ¬ In P n b i) : over P n l G b i = G b i := if_neg h

/-- Nothing is lent. -/
def nothing (_ _ : Nat) : Loan := .none

end Simd.Borrow

namespace Simd.Spec
open Borrow

theorem NewItem.mono {s s1 s2 s3 : State} {it : Item} (h : NewItem s1 s2 it) (h1 : s.next ≤ s1.next) (h2 : s2.next ≤ s3.next) : NewItem s s3 it :=
  ⟨Nat.le_trans h1 h.1, Nat.lt_of_lt_of_le h.2.1 h2, h.2.2⟩

theorem StackAfter.mono {s s' s2 : State} {l : Loan} {st st' : Stack} (h : StackAfter s s' l st st') (hn : s'.next ≤ s2.next) : StackAfter s s2 l st st' := by
  rcases h with h | h
  · exact .inl h
  · refine .inr ?_
    cases l with
    | none => exact h
    | shared t => obtain ⟨r, new, h1, h2, h3⟩ := h; exact ⟨r, new, h1, h2, fun it hi => ⟨NewItem.mono (h3 it hi).1 (Nat.le_refl _) hn, (h3 it hi).2⟩⟩
    | excl t => obtain ⟨w, new, h1, h2, h3⟩ := h; exact ⟨w, new, h1, h2, fun it hi => NewItem.mono (h3 it hi) (Nat.le_refl _) hn⟩
    | own => exact fun it hi => NewItem.mono (h it hi) (Nat.le_refl _) hn

theorem StackAfter.trans {s s1 s2 : State} {l : Loan} {st st1 st2 : Stack} (h1 : StackAfter s s1 l st st1) (h2 : StackAfter s1 s2 l st1 st2)
    (hn1 : s.next ≤ s1.next) (hn2 : s1.next ≤ s2.next) : StackAfter s s2 l st st2 := by
  rcases h2 with rfl | h2
  · exact StackAfter.mono h1 hn2
  · rcases h1 with rfl | h1
    · refine .inr ?_
      cases l with
      | none => exact h2
      | shared t => obtain ⟨r, new, h1, h2, h3⟩ := h2; exact ⟨r, new, h1, h2, fun it hi => ⟨NewItem.mono (h3 it hi).1 hn1 (Nat.le_refl _), (h3 it hi).2⟩⟩
      | excl t => obtain ⟨w, new, h1, h2, h3⟩ := h2; exact ⟨w, new, h1, h2, fun it hi => NewItem.mono (h3 it hi) hn1 (Nat.le_refl _)⟩
      | own => exact fun it hi => NewItem.mono (h2 it hi) hn1 (Nat.le_refl _)
    · refine .inr ?_
      cases l with
      | none => exact h2
      | shared t =>
        obtain ⟨r, new, e1, rfl, e3⟩ := h1
        obtain ⟨r', new', e1', rfl, e3'⟩ := h2
        rw [Stack.read_append (fun it hi => (e3 it hi).2) (Stack.read_idem e1)] at e1'
        cases e1'
        refine ⟨r, new' ++ new, e1, (List.append_assoc ..).symm, fun it hi => ?_⟩
        rcases List.mem_append.1 hi with hi | hi
        · exact ⟨NewItem.mono (e3' it hi).1 hn1 (Nat.le_refl _), (e3' it hi).2⟩
        · exact ⟨NewItem.mono (e3 it hi).1 (Nat.le_refl _) hn2, (e3 it hi).2⟩
      | excl t =>
        obtain ⟨w, new, e1, rfl, e3⟩ := h1
        obtain ⟨w', new', e1', rfl, e3'⟩ := h2
        obtain ⟨a, new2, rfl, e⟩ := Stack.write_append (t := t) (fun it hi => (e3 it hi).2.2) (Stack.write_idem e1)
        rw [e] at e1'
        cases e1'
        refine ⟨w, new' ++ new2, e1, (List.append_assoc ..).symm, fun it hi => ?_⟩
        rcases List.mem_append.1 hi with hi | hi
        · exact NewItem.mono (e3' it hi) hn1 (Nat.le_refl _)
        · exact NewItem.mono (e3 it (List.mem_append_right _ hi)) (Nat.le_refl _) hn2
      | own => exact fun it hi => NewItem.mono (h2 it hi) hn1 (Nat.le_refl _)

namespace AfterCall
variable {s s1 s2 : State} {G G' : Nat → Nat → Loan}

theorem refl (s : State) (G : Nat → Nat → Loan) : AfterCall s s G := ⟨Nat.le_refl _, rfl, fun _ _ => rfl, fun _ _ => .inl rfl⟩

theorem trans (h1 : AfterCall s s1 G) (h2 : AfterCall s1 s2 G) : AfterCall s s2 G :=
  ⟨Nat.le_trans h1.next h2.next, h2.frame.trans h1.frame, fun t ht => (h2.home t (Nat.lt_of_lt_of_le ht h1.next)).trans (h1.home t ht),
    fun b i => StackAfter.trans (h1.stack b i) (h2.stack b i) h1.next h2.next⟩

/-- More may be lent. -/
theorem weaken (h : AfterCall s s1 G) (hG : ∀ b i, G b i = .none ∨ G b i = G' b i) : AfterCall s s1 G' :=
  ⟨h.next, h.frame, h.home, fun b i => by
    have := h.stack b i
    rcases hG b i with e | e
    · rw [e] at this
      rcases this with h | h
      · exact .inl h
      · exact h.elim
    · rwa [e] at this⟩

theorem sound (hs : Sound s) (h : AfterCall s s1 G) : Sound s1 := by
  intro b i it hi
  have h0 : ∀ it' ∈ s.stack b i, it'.tag < s1.next ∧ ∀ f, it'.prot = some f → f ≤ s1.frame := fun it' hi' =>
    ⟨Nat.lt_of_lt_of_le (hs b i it' hi').1 h.next, h.frame ▸ (hs b i it' hi').2⟩
  have hn : NewItem s s1 it → it.tag < s1.next ∧ ∀ f, it.prot = some f → f ≤ s1.frame := fun h => ⟨h.2.1, fun f hf => by rw [h.2.2] at hf; cases hf⟩
  rcases h.stack b i with e | e
  · rw [e] at hi; exact h0 it hi
  · cases hG : G b i with
    | none => rw [hG] at e; exact e.elim
    | shared t =>
      rw [hG] at e
      obtain ⟨r, new, e1, e2, e3⟩ := e
      rw [e2] at hi
      rcases List.mem_append.1 hi with hi | hi
      · exact hn (e3 it hi).1
      · obtain ⟨it', h1, h2, h3⟩ := Stack.read_mem e1 it hi
        rw [← h2, ← h3]; exact h0 it' h1
    | excl t =>
      rw [hG] at e
      obtain ⟨w, new, e1, e2, e3⟩ := e
      rw [e2] at hi
      rcases List.mem_append.1 hi with hi | hi
      · exact hn (e3 it hi)
      · obtain ⟨a, e⟩ := Stack.write_suffix e1
        exact h0 it (by rw [e]; exact List.mem_append_right _ hi)
    | own => rw [hG] at e; exact hn (e it hi)

/-- What could be read can still be read. -/
theorem readable (h : AfterCall s s1 G) {p : Ptr} {n : Nat} (hp : p.buf < s.next) (hG : ∀ b i, In (place s p) n b i → G b i = .none ∨ G b i = .shared p.buf) (hr : Readable s p n) :
    Readable s1 p n := by
  intro b i hi
  rw [place, h.home _ hp] at hi
  have hr := hr b i hi
  rcases h.stack b i with e | e
  · rw [e]; exact hr
  · rcases hG b i hi with hg | hg
    · rw [hg] at e; exact e.elim
    · rw [hg] at e
      obtain ⟨r, new, e1, e2, e3⟩ := e
      rw [e2, Stack.read_append (fun it hi => (e3 it hi).2) (Stack.read_idem e1)]; rfl

/-- What could be written can still be written. -/
theorem mutable (h : AfterCall s s1 G) {p : Ptr} {n : Nat} (hp : p.buf < s.next) (hG : ∀ b i, In (place s p) n b i → G b i = .none ∨ G b i = .excl p.buf) (hr : Mutable s p n) :
    Mutable s1 p n := by
  intro b i hi
  rw [place, h.home _ hp] at hi
  have hr := hr b i hi
  rcases h.stack b i with e | e
  · rw [e]; exact hr
  · rcases hG b i hi with hg | hg
    · rw [hg] at e; exact e.elim
    · rw [hg] at e
      obtain ⟨w, new, e1, e2, e3⟩ := e
      obtain ⟨a, new2, -, e⟩ := Stack.write_append (t := p.buf) (fun it hi => (e3 it hi).2.2) (Stack.write_idem e1)
      rw [e2, e]; rfl

/-- The stack of a byte on which nothing was lent. -/
theorem same (h : AfterCall s s1 G) {b i : Nat} (hG : G b i = .none) : s1.stack b i = s.stack b i := by
  rcases h.stack b i with e | e
  · exact e
  · rw [hG] at e; exact e.elim

end AfterCall

end Simd.Spec

namespace Simd.Borrow
open Spec

variable {α β : Type}

/-! ### Retags -/

theorem release_prot {f : Nat} {perm : Perm} {t : Nat} : Item.release f ⟨perm, t, some f⟩ = ⟨perm, t, none⟩ := by
  unfold Item.release; rw [if_pos rfl]

namespace Retagged
variable {s s1 s2 : State} {prot : Option Nat} {k : Kind} {p : Ptr} {n : Nat} {G : Nat → Nat → Loan}

theorem home_new (h : Retagged s s1 prot k p n) : s1.home s.next = s.home p.buf := by rw [h.home]; exact if_pos rfl
theorem home_old (h : Retagged s s1 prot k p n) {t : Nat} (ht : t < s.next) : s1.home t = s.home t := by rw [h.home]; exact if_neg (by omega)
theorem place_new (h : Retagged s s1 prot k p n) : place s1 ⟨s.next, p.off⟩ = place s p := by unfold place; rw [h.home_new]
theorem place_old (h : Retagged s s1 prot k p n) {q : Ptr} (hq : q.buf < s.next) : place s1 q = place s q := by unfold place; rw [h.home_old hq]

/-- The byte's stack has an item of the new tag on top. -/
theorem top (h : Retagged s s1 prot k p n) (hk : k ≠ .rawMut) {b i : Nat} (hi : In (place s p) n b i) :
    ∃ rest, s1.stack b i = ⟨if k = .mut then .unique else .sharedRO, s.next, prot⟩ :: rest ∧ if k = .mut then (s.stack b i).write p.buf = some rest else (s.stack b i).read p.buf = some rest := by
  have := h.inside b i hi
  cases k with
  | «mut» => obtain ⟨w, h1, h2⟩ := Option.map_eq_some_iff.1 this; exact ⟨w, h2.symm, h1⟩
  | shared => obtain ⟨w, h1, h2⟩ := Option.map_eq_some_iff.1 this; exact ⟨w, h2.symm, h1⟩
  | rawConst => obtain ⟨w, h1, h2⟩ := Option.map_eq_some_iff.1 this; exact ⟨w, h2.symm, h1⟩
  | rawMut => exact absurd rfl hk

theorem top_mut (h : Retagged s s1 prot .mut p n) {b i : Nat} (hi : In (place s p) n b i) : ∃ rest, s1.stack b i = ⟨.unique, s.next, prot⟩ :: rest ∧ (s.stack b i).write p.buf = some rest := by
  obtain ⟨rest, h1, h2⟩ := h.top (by decide) hi
  exact ⟨rest, h1, h2⟩
theorem top_shared (h : Retagged s s1 prot k p n) (hk : k = .shared ∨ k = .rawConst) {b i : Nat} (hi : In (place s p) n b i) :
    ∃ rest, s1.stack b i = ⟨.sharedRO, s.next, prot⟩ :: rest ∧ (s.stack b i).read p.buf = some rest := by
  obtain ⟨rest, h1, h2⟩ := h.top (by rcases hk with rfl | rfl <;> decide) hi
  rcases hk with rfl | rfl <;> exact ⟨rest, h1, h2⟩

theorem sound (h : Retagged s s1 prot k p n) (hs : Sound s) (hk : k ≠ .rawMut) (hp : ∀ f, prot = some f → f ≤ s.frame) : Sound s1 := by
  intro b i it hi
  have h0 : ∀ it' ∈ s.stack b i, it'.tag < s1.next ∧ ∀ f, it'.prot = some f → f ≤ s1.frame := fun it' hi' =>
    ⟨by have := (hs b i it' hi').1; rw [h.next]; omega, h.frame ▸ (hs b i it' hi').2⟩
  by_cases hb : In (place s p) n b i
  · obtain ⟨rest, e1, e2⟩ := h.top hk hb
    rw [e1] at hi
    rcases List.mem_cons.1 hi with rfl | hi
    · exact ⟨by rw [h.next]; exact Nat.lt_succ_self _, fun f hf => h.frame ▸ hp f hf⟩
    · split at e2
      · obtain ⟨a, e⟩ := Stack.write_suffix e2
        exact h0 it (by rw [e]; exact List.mem_append_right _ hi)
      · obtain ⟨it', h1, h2, h3⟩ := Stack.read_mem e2 it hi
        rw [← h2, ← h3]; exact h0 it' h1
  · rw [h.outside b i hb] at hi; exact h0 it hi

/-- A retag without protector as a step of its own. -/
theorem after_shared (h : Retagged s s1 none k p n) (hk : k = .shared ∨ k = .rawConst) : AfterCall s s1 (over (place s p) n (.shared p.buf) nothing) := by
  refine ⟨by rw [h.next]; omega, h.frame, fun t ht => h.home_old ht, fun b i => ?_⟩
  by_cases hb : In (place s p) n b i
  · rw [over_in hb]
    obtain ⟨rest, e1, e2⟩ := h.top_shared hk hb
    refine .inr ⟨rest, [_], e2, e1, fun it hi => ?_⟩
    cases List.mem_singleton.1 hi
    exact ⟨⟨Nat.le_refl _, by rw [h.next]; exact Nat.lt_succ_self _, rfl⟩, rfl⟩
  · exact .inl (h.outside b i hb)

theorem after_mut (h : Retagged s s1 none .mut p n) : AfterCall s s1 (over (place s p) n (.excl p.buf) nothing) := by
  refine ⟨by rw [h.next]; omega, h.frame, fun t ht => h.home_old ht, fun b i => ?_⟩
  by_cases hb : In (place s p) n b i
  · rw [over_in hb]
    obtain ⟨rest, e1, e2⟩ := h.top_mut hb
    refine .inr ⟨rest, [_], e2, e1, fun it hi => ?_⟩
    cases List.mem_singleton.1 hi
    exact ⟨Nat.le_refl _, by rw [h.next]; exact Nat.lt_succ_self _, rfl⟩
  · exact .inl (h.outside b i hb)

/-- What was lent with the new tag was lent with the old one. -/
theorem under (h : Retagged s s1 none k p n) (hk : k = .mut ∨ k = .shared ∨ k = .rawConst) (h2 : AfterCall s1 s2 (over (place s p) n (if k = .mut then .excl s.next else .shared s.next) G)) :
    AfterCall s s2 (over (place s p) n (if k = .mut then .excl p.buf else .shared p.buf) G) := by
  have hn := h.next
  refine ⟨by have := h2.next; omega, h2.frame.trans h.frame, fun t ht => (h2.home t (by omega)).trans (h.home_old ht), fun b i => ?_⟩
  have h3 := h2.stack b i
  by_cases hb : In (place s p) n b i
  · rw [over_in hb] at h3 ⊢
    obtain ⟨rest, e1, e2⟩ := h.top (by rcases hk with rfl | rfl | rfl <;> decide) hb
    rw [e1] at h3
    have hnew : ∀ perm, NewItem s s2 ⟨perm, s.next, none⟩ := fun perm => ⟨Nat.le_refl _, by have := h2.next; dsimp only; omega, rfl⟩
    have hmono : ∀ it, NewItem s1 s2 it → NewItem s s2 it := fun it h => NewItem.mono h (by omega) (Nat.le_refl _)
    rcases hk with rfl | rfl | rfl
    · simp only [↓reduceIte] at h3 e1 e2 ⊢
      rcases h3 with h3 | ⟨w, new, h3, h4, h5⟩
      · exact .inr ⟨rest, [_], e2, h3, fun it hi => by cases List.mem_singleton.1 hi; exact hnew _⟩
      · rw [Stack.write_new] at h3
        cases h3
        refine .inr ⟨rest, new ++ [_], e2, by rw [h4, List.append_assoc]; rfl, fun it hi => ?_⟩
        rcases List.mem_append.1 hi with hi | hi
        · exact hmono _ (h5 it hi)
        · cases List.mem_singleton.1 hi; exact hnew _
    all_goals
      simp only [reduceCtorEq, ↓reduceIte] at h3 e1 e2 ⊢
      rcases h3 with h3 | ⟨w, new, h3, h4, h5⟩
      · exact .inr ⟨rest, [_], e2, h3, fun it hi => by cases List.mem_singleton.1 hi; exact ⟨hnew _, rfl⟩⟩
      · rw [Stack.read_new] at h3
        cases h3
        refine .inr ⟨rest, new ++ [_], e2, by rw [h4, List.append_assoc]; rfl, fun it hi => ?_⟩
        rcases List.mem_append.1 hi with hi | hi
        · exact ⟨hmono _ (h5 it hi).1, (h5 it hi).2⟩
        · cases List.mem_singleton.1 hi; exact ⟨hnew _, rfl⟩
  · rw [over_out hb] at h3 ⊢
    rw [h.outside b i hb] at h3
    exact StackAfter.trans (s1 := s1) (.inl rfl) h3 (by omega) h2.next

end Retagged

/-! ### Function calls -/

theorem newItem_ret {s s' : State} {it : Item} (h : NewItem s s' it) : NewItem s s'.ret it := h

/-- What was done with the reference that is the argument of a call was done with that of the caller. -/
theorem call_after {k : Kind} (hk : k = .mut ∨ k = .shared) {s s1 s2 : State} {p : Ptr} {n : Nat} {G : Nat → Nat → Loan} (hs : Sound s)
    (h : Retagged { s with frame := s.frame + 1 } s1 (some (s.frame + 1)) k p n) (h2 : AfterCall s1 s2 (over (place s p) n (if k = .mut then .excl s.next else .shared s.next) G)) :
    AfterCall s s2.ret (over (place s p) n (if k = .mut then .excl p.buf else .shared p.buf) G) := by
  have hn : s1.next = s.next + 1 := h.next
  have hf : s2.frame = s.frame + 1 := h2.frame.trans h.frame
  have hpl : place { s with frame := s.frame + 1 } p = place s p := rfl
  refine ⟨by have := h2.next; show s.next ≤ s2.next; omega, by show s2.frame - 1 = s.frame; omega,
    fun t ht => (h2.home t (by omega)).trans (h.home_old ht), fun b i => ?_⟩
  have h3 := h2.stack b i
  have hold : ∀ it ∈ s.stack b i, ∀ g, it.prot = some g → g < s.frame + 1 := fun it hi g hg => by have := (hs b i it hi).2 g hg; omega
  show StackAfter s s2.ret _ _ ((s2.stack b i).map (Item.release s2.frame))
  rw [hf]
  have hnew : ∀ perm, NewItem s s2.ret ⟨perm, s.next, none⟩ := fun perm => ⟨Nat.le_refl _, by have := h2.next; show s.next < s2.next; omega, rfl⟩
  have hmono : ∀ it, NewItem s1 s2 it → NewItem s s2.ret it := fun it h => NewItem.mono h (by omega) (Nat.le_refl _)
  by_cases hb : In (place s p) n b i
  · rw [over_in hb] at h3 ⊢
    obtain ⟨rest, e1, e2⟩ := h.top (by rcases hk with rfl | rfl <;> decide) hb
    rw [e1] at h3
    rcases hk with rfl | rfl
    · simp only [↓reduceIte] at h3 e1 e2 ⊢
      have hrest : rest.map (Item.release (s.frame + 1)) = rest := release_old fun it hi => by
        obtain ⟨a, e⟩ := Stack.write_suffix e2
        exact hold it (by rw [show s.stack b i = a ++ rest from e]; exact List.mem_append_right _ hi)
      rcases h3 with h3 | ⟨w, new, h3, h4, h5⟩
      · refine .inr ⟨rest, [_], e2, ?_, fun it hi => by cases List.mem_singleton.1 hi; exact hnew .unique⟩
        rw [h3, List.map_cons, hrest, release_prot]; rfl
      · rw [Stack.write_new] at h3
        cases h3
        refine .inr ⟨rest, new ++ [⟨.unique, s.next, none⟩], e2, ?_, fun it hi => ?_⟩
        · rw [h4, List.map_append, List.map_cons, hrest, release_prot, release_none fun it hi => (h5 it hi).2.2, List.append_assoc]; rfl
        · rcases List.mem_append.1 hi with hi | hi
          · exact hmono _ (h5 it hi)
          · cases List.mem_singleton.1 hi; exact hnew _
    · simp only [reduceCtorEq, ↓reduceIte] at h3 e1 e2 ⊢
      have hrest : rest.map (Item.release (s.frame + 1)) = rest := release_old fun it hi => by
        obtain ⟨it', h1, -, h2⟩ := Stack.read_mem e2 it hi
        rw [← h2]; exact hold it' h1
      rcases h3 with h3 | ⟨w, new, h3, h4, h5⟩
      · refine .inr ⟨rest, [_], e2, ?_, fun it hi => by cases List.mem_singleton.1 hi; exact ⟨hnew .sharedRO, rfl⟩⟩
        rw [h3, List.map_cons, hrest, release_prot]; rfl
      · rw [Stack.read_new] at h3
        cases h3
        refine .inr ⟨rest, new ++ [⟨.sharedRO, s.next, none⟩], e2, ?_, fun it hi => ?_⟩
        · rw [h4, List.map_append, List.map_cons, hrest, release_prot, release_none fun it hi => (h5 it hi).1.2.2, List.append_assoc]; rfl
        · rcases List.mem_append.1 hi with hi | hi
          · exact ⟨hmono _ (h5 it hi).1, (h5 it hi).2⟩
          · cases List.mem_singleton.1 hi; exact ⟨hnew _, rfl⟩
  · rw [over_out hb] at h3 ⊢
    rw [h.outside b i hb] at h3
    rcases h3 with h3 | h3
    · exact .inl (by rw [h3]; exact release_old hold)
    · refine .inr ?_
      cases hG : G b i with
      | none => rw [hG] at h3; exact h3
      | shared t =>
        rw [hG] at h3
        obtain ⟨r, new, h3, h4, h5⟩ := h3
        refine ⟨r, new, h3, ?_, fun it hi => ⟨hmono _ (h5 it hi).1, (h5 it hi).2⟩⟩
        rw [h4, List.map_append, release_none fun it hi => (h5 it hi).1.2.2, release_old fun it hi => ?_]
        obtain ⟨it', h1, -, h2⟩ := Stack.read_mem h3 it hi
        rw [← h2]; exact hold it' h1
      | excl t =>
        rw [hG] at h3
        obtain ⟨w, new, h3, h4, h5⟩ := h3
        refine ⟨w, new, h3, ?_, fun it hi => hmono _ (h5 it hi)⟩
        rw [h4, List.map_append, release_none fun it hi => (h5 it hi).2.2, release_old fun it hi => ?_]
        obtain ⟨a, e⟩ := Stack.write_suffix h3
        exact hold it (by rw [show s.stack b i = a ++ w from e]; exact List.mem_append_right _ hi)
      | own =>
        rw [hG] at h3
        rw [release_none fun it hi => (h3 it hi).2.2]
        exact fun it hi => hmono _ (h3 it hi)

/-- A call whose argument is a reference to the `n` bytes at `p`. -/
theorem call_run {k : Kind} (hk : k = .mut ∨ k = .shared) {body : Ptr → BProg α} {s : State} {p : Ptr} {n : Nat} {o : Out β} {Q : α → β → State → Prop} {E : State → Prop}
    (hs : Sound s) (hr : if k = .mut then Mutable s p n else Readable s p n)
    (hb : ∀ s1, s1.mem = s.mem → Sound s1 → Retagged { s with frame := s.frame + 1 } s1 (some (s.frame + 1)) k p n → Sim (body ⟨s.next, p.off⟩ s1) o (fun a b s2 => Q a b s2.ret) (fun s2 => E s2.ret)) :
    Sim (call (arg k p n >>= body) s) o Q E := by
  have hsim : Sim ((arg k p n >>= body) { s with frame := s.frame + 1 }) o (fun a b s2 => Q a b s2.ret) (fun s2 => E s2.ret) := by
    refine Sim.left (x := arg k p n) (E' := fun _ => False) (retag_sim (s := { s with frame := s.frame + 1 }) fun b i hi => ?_) fun r s1 hm h => ?_
    · rcases hk with rfl | rfl
      · have : Mutable s p n := hr
        rw [Kind.apply, Option.isSome_map]; exact this b i hi
      · have : Readable s p n := hr
        rw [Kind.apply, Option.isSome_map]; exact this b i hi
    · obtain ⟨rfl, h⟩ := h
      exact hb s1 hm (h.sound (fun b i it hi => ⟨(hs b i it hi).1, fun f hf => Nat.le_succ_of_le ((hs b i it hi).2 f hf)⟩) (by rcases hk with rfl | rfl <;> decide)
        (fun f hf => by cases hf; exact Nat.le_refl _)) h
  unfold call
  revert hsim
  cases (arg k p n >>= body) { s with frame := s.frame + 1 } <;> cases o <;> intro hsim <;> first | exact hsim.elim | trivial | exact ⟨hsim.1, hsim.2⟩

/-- A call whose argument is a reference to the `n` bytes at `p`: what the body does with its own reference, the call does with that of the caller. -/
theorem call_sim {k : Kind} (hk : k = .mut ∨ k = .shared) {body : Ptr → BProg α} {s : State} {p : Ptr} {n : Nat} {G : Nat → Nat → Loan} {o : Out β} {Q : α → β → State → Prop} {E : State → Prop}
    (hs : Sound s) (hr : if k = .mut then Mutable s p n else Readable s p n)
    (hb : ∀ s1, s1.mem = s.mem → Sound s1 → Retagged { s with frame := s.frame + 1 } s1 (some (s.frame + 1)) k p n → Sim (body ⟨s.next, p.off⟩ s1) o
      (fun a b s2 => AfterCall s1 s2 (over (place s p) n (if k = .mut then .excl s.next else .shared s.next) G) ∧ Q a b s2.ret)
      (fun s2 => AfterCall s1 s2 (over (place s p) n (if k = .mut then .excl s.next else .shared s.next) G) ∧ E s2.ret)) :
    Sim (call (arg k p n >>= body) s) o (fun a b s' => AfterCall s s' (over (place s p) n (if k = .mut then .excl p.buf else .shared p.buf) G) ∧ Q a b s')
      (fun s' => AfterCall s s' (over (place s p) n (if k = .mut then .excl p.buf else .shared p.buf) G) ∧ E s') := by
  exact call_run hk hs hr fun s1 hm1 hs1 h => (hb s1 hm1 hs1 h).mono (fun a b s2 h2 => ⟨call_after hk hs h h2.1, h2.2⟩) fun s2 h2 => ⟨call_after hk hs h h2.1, h2.2⟩

/-! ### From references to raw pointers and back -/

/-- `r` was made from `p`. -/
structure Derived (s s' : State) (p r : Ptr) : Prop where
  lo : s.next ≤ r.buf
  hi : r.buf < s'.next
  off : r.off = p.off
  home : s'.home r.buf = s.home p.buf

theorem Derived.place {s s' : State} {p r : Ptr} (h : Derived s s' p r) : place s' r = place s p := by
  unfold Spec.place; rw [h.home, h.off]

/-- Reading the `n` bytes at `p` through `p` changes nothing. -/
def Quiet (s : State) (p : Ptr) (n : Nat) : Prop := ∀ b i, In (place s p) n b i → (s.stack b i).read p.buf = some (s.stack b i)

theorem Quiet.ret {s : State} {p : Ptr} {n : Nat} (h : Quiet s p n) : Quiet s.ret p n := fun b i hi => Stack.read_release (h b i hi)
theorem Quiet.readable {s : State} {p : Ptr} {n : Nat} (h : Quiet s p n) : Readable s p n := fun b i hi => by rw [h b i hi]; rfl

theorem OnTop.ret {s : State} {perm : Perm} {p : Ptr} {n : Nat} (h : OnTop s perm p n) : OnTop s.ret perm p n := fun b i hi => by
  obtain ⟨rest, e⟩ := h b i hi
  exact ⟨rest.map (Item.release s.frame), by show (s.stack b i).map _ = _; rw [e]; rfl⟩

theorem OnTop.mutable {s : State} {perm : Perm} {p : Ptr} {n : Nat} (h : OnTop s perm p n) (hp : perm = .unique ∨ perm = .sharedRW) : Mutable s p n := fun b i hi => by
  obtain ⟨rest, e⟩ := h b i hi
  rw [e, show Stack.write p.buf (⟨perm, p.buf, none⟩ :: rest) = _ from Stack.write_top rfl hp]; rfl

theorem OnTop.mono {s : State} {perm : Perm} {p : Ptr} {n m : Nat} (h : OnTop s perm p n) (hm : m ≤ n) : OnTop s perm p m := fun b i hi => h b i (in_mono hm hi)
theorem _root_.Simd.Spec.Mutable.mono {s : State} {p : Ptr} {n m : Nat} (h : Mutable s p n) (hm : m ≤ n) : Mutable s p m := fun b i hi => h b i (in_mono hm hi)

theorem Retagged.derived {s s1 : State} {prot : Option Nat} {k : Kind} {p : Ptr} {n : Nat} (h : Retagged s s1 prot k p n) : Derived s s1 p ⟨s.next, p.off⟩ :=
  ⟨Nat.le_refl _, by rw [h.next]; exact Nat.lt_succ_self _, rfl, h.home_new⟩

theorem as_ptr_sim {s : State} {p : Ptr} {n : Nat} (hs : Sound s) (hr : Readable s p n) :
    Sim (as_ptr p n s) (.ok () s.mem) (fun r _ s' => AfterCall s s' (over (place s p) n (.shared p.buf) nothing) ∧ Derived s s' p r ∧ Quiet s' r n) (fun _ => True) := by
  refine (call_sim (k := .shared) (G := nothing) (o := .ok () s.mem) (Q := fun r _ s' => Derived s s' p r ∧ Quiet s' r n) (E := fun _ => True) (.inr rfl) hs hr fun s1 hm hs1 h => ?_).mono (fun _ _ _ h => h) fun _ _ => trivial
  simp only [reduceCtorEq, ↓reduceIte]
  rw [← hm]
  refine (retag_sim (E := fun _ => False) fun b i hi => ?_).mono ?_ (fun _ h => h.elim)
  · rw [h.place_new] at hi
    obtain ⟨rest, e, -⟩ := h.top_shared (.inl rfl) hi
    rw [Kind.apply, e, Stack.read_new]; rfl
  · rintro r _ s2 ⟨rfl, h2⟩
    have h3 := h2.after_shared (.inr rfl)
    rw [h.place_new] at h3
    refine ⟨h3, ⟨?_, ?_, rfl, ?_⟩, Quiet.ret fun b i hi => ?_⟩
    · have := h.next; dsimp only at this ⊢; omega
    · exact h2.derived.hi
    · exact h2.home_new.trans h.home_new
    · rw [h2.place_new] at hi
      obtain ⟨rest, e, -⟩ := h2.top_shared (.inr rfl) hi
      rw [e, Stack.read_new]

theorem slice_parts_sim {s : State} {p : Ptr} {n : Nat} (hs : Sound s) (hr : Readable s p n) :
    Sim (slice_parts p n s) (.ok () s.mem) (fun r _ s' => AfterCall s s' (over (place s p) n (.shared p.buf) nothing) ∧ Derived s s' p r ∧ Quiet s' r n) (fun _ => True) := by
  refine (call_sim (k := .shared) (G := nothing) (o := .ok () s.mem) (Q := fun r _ s' => Derived s s' p r ∧ Quiet s' r n) (E := fun _ => True) (.inr rfl) hs hr fun s1 hm hs1 h => ?_).mono (fun _ _ _ h => h) fun _ _ => trivial
  simp only [reduceCtorEq, ↓reduceIte]
  rw [← hm]
  have hr1 : Readable s1 ⟨s.next, p.off⟩ n := fun b i hi => by
    rw [h.place_new] at hi
    obtain ⟨rest, e, -⟩ := h.top_shared (.inl rfl) hi
    rw [e, Stack.read_new]; rfl
  have key : ∀ s2, AfterCall s1 s2 (over (place s1 ⟨s.next, p.off⟩) n (.shared s.next) nothing) → AfterCall s1 s2 (over (place s p) n (.shared s.next) nothing) := fun s2 h3 => by
    rw [h.place_new] at h3; exact h3
  cases hx : as_ptr ⟨s.next, p.off⟩ n s1 with
  | ok r s2 =>
    have := as_ptr_sim hs1 hr1
    rw [hx] at this
    obtain ⟨e, h3, h4, h5⟩ := this
    refine ⟨e, key _ h3, ⟨?_, ?_, h4.off, h4.home.trans h.home_new⟩, h5.ret⟩
    · have := h.next; have := h4.lo; dsimp only at *; omega
    · exact h4.hi
  | err | panic | ub => have := as_ptr_sim hs1 hr1; rw [hx] at this; exact this.elim

theorem as_mut_ptr_sim {s : State} {p : Ptr} {n : Nat} (hs : Sound s) (hr : Mutable s p n) :
    Sim (as_mut_ptr p n s) (.ok () s.mem) (fun r _ s' => AfterCall s s' (over (place s p) n (.excl p.buf) nothing) ∧ Derived s s' p r ∧ OnTop s' .sharedRW r n) (fun _ => True) := by
  refine Sim.left (x := retag .mut p n) (E' := fun _ => False) (retag_sim fun b i hi => ?_) ?_
  · rw [Kind.apply, Option.isSome_map]; exact hr b i hi
  rintro _ s1 hm ⟨rfl, h⟩
  have hs1 := h.sound hs (by decide) (fun f hf => by cases hf)
  have hr1 : Mutable s1 ⟨s.next, p.off⟩ n := fun b i hi => by
    rw [h.place_new] at hi
    obtain ⟨rest, e, -⟩ := h.top_mut hi
    rw [e, Stack.write_new]; rfl
  rw [← hm]
  refine (call_sim (k := .mut) (G := nothing) (o := .ok () s1.mem) (Q := fun r _ s' => Derived s1 s' ⟨s.next, p.off⟩ r ∧ OnTop s' .sharedRW r n) (E := fun _ => True) (.inl rfl) hs1 hr1 fun s2 hm hs2 h2 => ?_).mono ?_ fun _ _ => trivial
  · simp only [↓reduceIte]
    rw [← hm]
    refine (retag_sim (E := fun _ => False) fun b i hi => ?_).mono ?_ (fun _ h => h.elim)
    · rw [h2.place_new] at hi
      obtain ⟨rest, e, -⟩ := h2.top_mut hi
      rw [Kind.apply, e, Stack.addRaw_new]; rfl
    · rintro r _ s3 ⟨rfl, h3⟩
      have htop : ∀ b i, In (place s1 ⟨s.next, p.off⟩) n b i → s3.stack b i = ⟨.sharedRW, s2.next, none⟩ :: s2.stack b i ∧ (s2.stack b i).write s1.next = some (s2.stack b i) := fun b i hi => by
        obtain ⟨rest, e, -⟩ := h2.top_mut hi
        have := h3.inside b i (by rw [h2.place_new]; exact hi)
        rw [Kind.apply, e, Stack.addRaw_new] at this
        rw [e]
        exact ⟨(Option.some.inj this).symm, Stack.write_new⟩
      refine ⟨⟨by rw [h3.next]; omega, h3.frame, fun t ht => h3.home_old ht, fun b i => ?_⟩, ⟨?_, h3.derived.hi, rfl, h3.home_new.trans h2.home_new⟩, OnTop.ret fun b i hi => ?_⟩
      · by_cases hb : In (place s1 ⟨s.next, p.off⟩) n b i
        · rw [over_in hb]
          obtain ⟨e1, e2⟩ := htop b i hb
          refine .inr ⟨_, [_], e2, e1, fun it hi => ?_⟩
          cases List.mem_singleton.1 hi
          exact ⟨Nat.le_refl _, by rw [h3.next]; exact Nat.lt_succ_self _, rfl⟩
        · refine .inl (h3.outside b i ?_)
          rw [h2.place_new]; exact hb
      · have := h2.next; dsimp only at this ⊢; omega
      · rw [h3.place_new, h2.place_new] at hi
        exact ⟨_, (htop b i hi).1⟩
  · rintro r _ s' ⟨h3, h4, h5⟩
    simp only [↓reduceIte] at h3
    rw [h.place_new] at h3
    refine ⟨h.under (.inl rfl) h3, ⟨?_, h4.hi, h4.off, h4.home.trans h.home_new⟩, h5⟩
    have := h.next; have := h4.lo; omega

theorem slice_mut_sim {s : State} {p : Ptr} {n : Nat} (hr : Mutable s p n) :
    Sim (slice_mut p n s) (.ok () s.mem) (fun r _ s' => AfterCall s s' (over (place s p) n (.excl p.buf) nothing) ∧ Derived s s' p r ∧ OnTop s' .unique r n) (fun _ => True) := by
  refine (retag_sim (E := fun _ => False) fun b i hi => ?_).mono ?_ (fun _ h => h.elim)
  · rw [Kind.apply, Option.isSome_map]; exact hr b i hi
  · rintro r _ s1 ⟨rfl, h⟩
    refine ⟨h.after_mut, h.derived, fun b i hi => ?_⟩
    rw [h.place_new] at hi
    obtain ⟨rest, e, -⟩ := h.top_mut hi
    exact ⟨rest, e⟩

/-! ### Kernels -/

unseal Uses in
theorem _root_.Simd.Uses.trace {L W : Nat → Prop} {R : α → Prop} {x : Prog α} (h : Uses L W R x) (m : Mem) : ∀ a ∈ x.trace m, match a with
    | .load p _ => L p.buf
    | .store p _ => W p.buf := by
  induction x generalizing m with
  | load p n k ih =>
    intro a ha
    simp only [Prog.trace] at ha
    rcases List.mem_cons.1 ha with rfl | ha
    · exact And.left h
    · split at ha
      · exact ih _ (And.right h _) m a ha
      · cases ha
  | store p bs k ih =>
    intro a ha
    simp only [Prog.trace] at ha
    rcases List.mem_cons.1 ha with rfl | ha
    · exact And.left h
    · split at ha
      · exact ih (And.right h) _ a ha
      · cases ha
  | chk p k ih =>
    intro a ha
    simp only [Prog.trace] at ha
    split at ha
    · exact ih h _ a ha
    · cases ha
  | alloc n k ih => exact False.elim h
  | _ => intro a ha; cases ha

/-- A loop that gets raw pointers: bytes that it reads have stacks on which this has no effect, bytes that it writes have stacks on which this has no effect or are lent for it. -/
theorem kern {R : α → α → Prop} {x y : Prog α} {s : State} (h : Ren s.home R x y) {A : Nat → Nat → Prop} (hA : ∀ b b' i, A b i → A b' i → s.home b = s.home b' → b = b')
    {μ : Mem} (hP : Piece s.home A x μ y s.mem) {L W : Nat → Prop} (hu : Uses' L W x) {G : Nat → Nat → Loan}
    (hl : ∀ t i, L t → A t i → G (s.home t) i = .none ∧ (s.stack (s.home t) i).read t = some (s.stack (s.home t) i))
    (hw : ∀ t i, W t → A t i → G (s.home t) i = .none ∧ (s.stack (s.home t) i).write t = some (s.stack (s.home t) i) ∨
      G (s.home t) i = .excl t ∧ ((s.stack (s.home t) i).write t).isSome) :
    Sim (prog x s) (y.run s.mem) (fun a b s' => R a b ∧ s'.next = s.next ∧ AfterCall s s' G) (fun s' => s'.next = s.next ∧ AfterCall s s' G) := by
  have hin : ∀ a ∈ x.trace μ, match a with | .load p n => ∀ i, In p n p.buf i → A p.buf i | .store p n => ∀ i, In p n p.buf i → A p.buf i := fun a ha => by
    have := hP.inside a ha
    cases a <;> exact fun i hi => this _ i hi
  have hut := hu.trace μ
  have key := prog_sim h hA hP (K := fun b i st => st = s.stack b i ∨ ∃ t, G b i = .excl t ∧ (s.stack b i).write t = some st) (fun a ha => by
    have h1 := hin a ha
    have h2 := hut a ha
    cases a with
    | load p n =>
      intro i hi st hst
      obtain ⟨e1, e2⟩ := hl p.buf i h2 (h1 i hi)
      rcases hst with rfl | ⟨t, e, -⟩
      · exact ⟨_, e2, .inl rfl⟩
      · rw [e1] at e; cases e
    | store p n =>
      intro i hi st hst
      rcases hw p.buf i h2 (h1 i hi) with ⟨e1, e2⟩ | ⟨e1, e2⟩
      · rcases hst with rfl | ⟨t, e, -⟩
        · exact ⟨_, e2, .inl rfl⟩
        · rw [e1] at e; cases e
      · obtain ⟨w, e2⟩ := Option.isSome_iff_exists.1 e2
        rcases hst with rfl | ⟨t, e, e3⟩
        · exact ⟨_, e2, .inr ⟨_, e1, e2⟩⟩
        · rw [e1] at e; cases e
          rw [e2] at e3; cases e3
          exact ⟨_, Stack.write_idem e2, .inr ⟨_, e1, e2⟩⟩) (fun b i => .inl rfl)
  have fin : ∀ s' : State, s'.next = s.next → s'.frame = s.frame → s'.home = s.home → (∀ b i, s'.stack b i = s.stack b i ∨ ∃ t, G b i = .excl t ∧ (s.stack b i).write t = some (s'.stack b i)) →
      AfterCall s s' G := fun s' h1 h2 h3 h4 => ⟨by omega, h2, fun t _ => by rw [h3], fun b i => by
    rcases h4 b i with e | ⟨t, e1, e2⟩
    · exact .inl e
    · rw [e1]; exact .inr ⟨_, [], e2, rfl, fun it hi => by cases hi⟩⟩
  exact key.mono (fun a b s' ⟨h1, h2, h3, h4, h5⟩ => ⟨h1, h2, fin s' h2 h3 h4 h5⟩) fun s' ⟨h2, h3, h4, h5⟩ => ⟨h2, fin s' h2 h3 h4 h5⟩

/-- A program on a source and a destination runs well with any two tags for them. -/
def Good2 (F : Ptr → Ptr → Prog α) (P : Ptr) (n : Nat) (Q : Ptr) (d : Nat) (M : Mem) : Prop :=
  ∀ (ρ : Nat → Nat) (a b : Nat), a ≠ b → ρ a = P.buf → ρ b = Q.buf →
    ∃ μ, Piece ρ (fun c i => In ⟨a, P.off⟩ n c i ∨ In ⟨b, Q.off⟩ d c i) (F ⟨a, P.off⟩ ⟨b, Q.off⟩) μ (F P Q) M

/-- A program on one slice runs well with any tag for it. -/
def Good1 (F : Ptr → Prog α) (P : Ptr) (n : Nat) (M : Mem) : Prop :=
  ∀ (ρ : Nat → Nat) (a : Nat), ρ a = P.buf → ∃ μ, Piece ρ (In ⟨a, P.off⟩ n) (F ⟨a, P.off⟩) μ (F P) M

theorem inj2 {ρ : Nat → Nat} {a b : Nat} {P Q : Ptr} {n d : Nat} (ho : NoOverlap P n Q d) (ha : ρ a = P.buf) (hb : ρ b = Q.buf) (c c' i : Nat)
    (h : In ⟨a, P.off⟩ n c i ∨ In ⟨b, Q.off⟩ d c i) (h' : In ⟨a, P.off⟩ n c' i ∨ In ⟨b, Q.off⟩ d c' i) (e : ρ c = ρ c') : c = c' := by
  rcases h with ⟨rfl, h1, h2⟩ | ⟨rfl, h1, h2⟩ <;> rcases h' with ⟨rfl, h3, h4⟩ | ⟨rfl, h3, h4⟩
  · rfl
  · dsimp only at h1 h2 h3 h4 e
    exact absurd ⟨by rw [← ha, ← hb, e], by omega⟩ (ho (i - P.off) (i - Q.off) (by omega) (by omega))
  · dsimp only at h1 h2 h3 h4 e
    exact absurd ⟨by rw [← ha, ← hb, e], by omega⟩ (ho (i - P.off) (i - Q.off) (by omega) (by omega))
  · rfl

theorem inj1 {ρ : Nat → Nat} {a : Nat} {P : Ptr} {n : Nat} (c c' i : Nat) (h : In ⟨a, P.off⟩ n c i) (h' : In ⟨a, P.off⟩ n c' i) (_ : ρ c = ρ c') : c = c' := h.1.trans h'.1.symm

namespace Good2
variable {X : Ptr → Ptr → Prog α} {K : Ptr → Ptr → α → Prog β} {P Q : Ptr} {n d : Nat} {M M' : Mem}

theorem head (h : Good2 (fun p q => X p q >>= K p q) P n Q d M) : Good2 X P n Q d M := fun ρ a b hab ha hb => by
  obtain ⟨μ, h⟩ := h ρ a b hab ha hb
  exact ⟨μ, h.head⟩

theorem next (h : Good2 (fun p q => X p q >>= K p q) P n Q d M) (ho : NoOverlap P n Q d) (hX : ∀ ρ a b, RenE ρ (X ⟨a, P.off⟩ ⟨b, Q.off⟩) (X ⟨ρ a, P.off⟩ ⟨ρ b, Q.off⟩)) {v : α}
    (hv : (X P Q).run M = .ok v M') : Good2 (fun p q => K p q v) P n Q d M' := fun ρ a b hab ha hb => by
  obtain ⟨μ, h⟩ := h ρ a b hab ha hb
  have hr := hX ρ a b
  rw [ha, hb] at hr
  obtain ⟨a', μ', rfl, h⟩ := h.next hr (inj2 ho ha hb) hv
  exact ⟨μ', h⟩

end Good2

namespace Good1
variable {X : Ptr → Prog α} {K : Ptr → α → Prog β} {P : Ptr} {n : Nat} {M M' : Mem}

theorem head (h : Good1 (fun p => X p >>= K p) P n M) : Good1 X P n M := fun ρ a ha => by
  obtain ⟨μ, h⟩ := h ρ a ha
  exact ⟨μ, h.head⟩

theorem next (h : Good1 (fun p => X p >>= K p) P n M) (hX : ∀ ρ a, RenE ρ (X ⟨a, P.off⟩) (X ⟨ρ a, P.off⟩)) {v : α} (hv : (X P).run M = .ok v M') :
    Good1 (fun p => K p v) P n M' := fun ρ a ha => by
  obtain ⟨μ, h⟩ := h ρ a ha
  have hr := hX ρ a
  rw [ha] at hr
  obtain ⟨a', μ', rfl, h⟩ := h.next hr inj1 hv
  exact ⟨μ', h⟩

end Good1

/-- A loop that reads the source and writes the destination. -/
theorem kern2 {R : (Nat → Nat) → α → α → Prop} {F : Ptr → Ptr → Prog α} {s : State} {p q P Q : Ptr} {n d : Nat} (eP : place s p = P) (eQ : place s q = Q) (hG : Good2 F P n Q d s.mem)
    (hF : ∀ ρ a b, Ren ρ (R ρ) (F ⟨a, P.off⟩ ⟨b, Q.off⟩) (F ⟨ρ a, P.off⟩ ⟨ρ b, Q.off⟩)) (hu : Uses' (· = p.buf) (· = q.buf) (F p q)) (hpq : p.buf ≠ q.buf) (ho : NoOverlap P n Q d)
    (hq : Quiet s p n) (hm : Mutable s q d) :
    Sim (prog (F p q) s) ((F P Q).run s.mem) (fun v v' s' => R s.home v v' ∧ s'.next = s.next ∧ AfterCall s s' (over Q d (.excl q.buf) nothing))
      (fun s' => s'.next = s.next ∧ AfterCall s s' (over Q d (.excl q.buf) nothing)) := by
  subst eP eQ
  obtain ⟨μ, hP⟩ := hG s.home p.buf q.buf hpq rfl rfl
  refine kern (hF s.home p.buf q.buf) (inj2 ho rfl rfl) hP hu (fun t i ht hi => ?_) fun t i ht hi => ?_
  · cases ht
    rcases hi with ⟨-, h1, h2⟩ | ⟨h, -⟩
    · refine ⟨over_out ?_, hq _ _ ⟨rfl, h1, h2⟩⟩
      rintro ⟨h3, h4, h5⟩
      dsimp only [place] at h1 h2 h3 h4 h5
      exact ho (i - p.off) (i - q.off) (by omega) (by omega) ⟨h3, by dsimp only [place]; omega⟩
    · exact absurd h hpq
  · cases ht
    rcases hi with ⟨h, -⟩ | ⟨-, h1, h2⟩
    · exact absurd h.symm hpq
    · exact .inr ⟨over_in ⟨rfl, h1, h2⟩, hm _ _ ⟨rfl, h1, h2⟩⟩

/-- A loop that only reads the source of a program with source and destination. -/
theorem kern2_read {R : (Nat → Nat) → Nat → α → α → Prop} {F : Ptr → Prog α} {s : State} {p P Q : Ptr} {n d : Nat} (eP : place s p = P) (hG : Good2 (fun p _ => F p) P n Q d s.mem)
    (hF : ∀ ρ a, Ren ρ (R ρ a) (F ⟨a, P.off⟩) (F ⟨ρ a, P.off⟩)) (hu : Uses' (· = p.buf) (fun _ => False) (F p)) {b : Nat} (hb : s.home b = Q.buf) (hpq : p.buf ≠ b) (ho : NoOverlap P n Q d) (hq : Quiet s p n) :
    Sim (prog (F p) s) ((F P).run s.mem) (fun v v' s' => R s.home p.buf v v' ∧ s'.next = s.next ∧ AfterCall s s' nothing) (fun s' => s'.next = s.next ∧ AfterCall s s' nothing) := by
  subst eP
  obtain ⟨μ, hP⟩ := hG s.home p.buf b hpq rfl hb
  refine kern (hF s.home p.buf) (inj2 ho rfl hb) hP hu (fun t i ht hi => ?_) fun t i ht hi => ht.elim
  cases ht
  rcases hi with ⟨-, h1, h2⟩ | ⟨h, -⟩
  · exact ⟨rfl, hq _ _ ⟨rfl, h1, h2⟩⟩
  · exact absurd h hpq

/-- A loop that only reads. -/
theorem kern1_read {R : (Nat → Nat) → α → α → Prop} {F : Ptr → Prog α} {s : State} {p P : Ptr} {n : Nat} (eP : place s p = P) (hG : Good1 F P n s.mem)
    (hF : ∀ ρ a, Ren ρ (R ρ) (F ⟨a, P.off⟩) (F ⟨ρ a, P.off⟩)) (hu : Uses' (· = p.buf) (fun _ => False) (F p)) (hq : Quiet s p n) :
    Sim (prog (F p) s) ((F P).run s.mem) (fun v v' s' => R s.home v v' ∧ s'.next = s.next ∧ AfterCall s s' nothing) (fun s' => s'.next = s.next ∧ AfterCall s s' nothing) := by
  subst eP
  obtain ⟨μ, hP⟩ := hG s.home p.buf rfl
  refine kern (hF s.home p.buf) inj1 hP hu (fun t i ht hi => ?_) fun t i ht hi => ht.elim
  cases ht
  exact ⟨rfl, hq _ _ ⟨rfl, hi.2.1, hi.2.2⟩⟩

/-- A loop that works in place through a raw pointer that is on top. -/
theorem kern1 {R : (Nat → Nat) → α → α → Prop} {F : Ptr → Prog α} {s : State} {p P : Ptr} {n : Nat} (eP : place s p = P) (hG : Good1 F P n s.mem)
    (hF : ∀ ρ a, Ren ρ (R ρ) (F ⟨a, P.off⟩) (F ⟨ρ a, P.off⟩)) (hu : Uses' (· = p.buf) (· = p.buf) (F p)) (ht : OnTop s .sharedRW p n) :
    Sim (prog (F p) s) ((F P).run s.mem) (fun v v' s' => R s.home v v' ∧ s'.next = s.next ∧ AfterCall s s' nothing) (fun s' => s'.next = s.next ∧ AfterCall s s' nothing) := by
  subst eP
  obtain ⟨μ, hP⟩ := hG s.home p.buf rfl
  refine kern (hF s.home p.buf) inj1 hP hu (fun t i e hi => ?_) fun t i e hi => ?_
  · cases e
    obtain ⟨rest, e⟩ := ht (s.home p.buf) i ⟨rfl, hi.2.1, hi.2.2⟩
    rw [e]; exact ⟨rfl, Stack.read_top rfl (by simp)⟩
  · cases e
    obtain ⟨rest, e⟩ := ht (s.home p.buf) i ⟨rfl, hi.2.1, hi.2.2⟩
    rw [e]; exact .inl ⟨rfl, Stack.write_top rfl (.inr rfl)⟩

end Simd.Borrow
