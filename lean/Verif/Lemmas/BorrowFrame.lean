import Verif.Lemmas.BorrowOps
import Verif.Props.Concurrent
/-
Pieces of function bodies with borrow stacks.
-/
namespace Simd.Borrow
open Spec

variable {α β : Type}

theorem Stack.read_has {t : Nat} {st r : Stack} (h : st.read t = some r) : ∃ it ∈ st, it.tag = t := by
  induction st generalizing r with
  | nil => cases h
  | cons it st ih =>
    rw [Stack.read] at h
    split at h
    · rename_i h'; exact ⟨it, .head _, h'.1⟩
    · split at h
      · split at h
        · cases h
        · obtain ⟨r', h1, -⟩ := Option.map_eq_some_iff.1 h
          obtain ⟨x, h2, h3⟩ := ih h1
          exact ⟨x, .tail _ h2, h3⟩
      · obtain ⟨r', h1, -⟩ := Option.map_eq_some_iff.1 h
        obtain ⟨x, h2, h3⟩ := ih h1
        exact ⟨x, .tail _ h2, h3⟩

theorem Stack.write_has {t : Nat} {st w : Stack} (h : st.write t = some w) : ∃ it ∈ w, it.tag = t := by
  induction st generalizing w with
  | nil => cases h
  | cons it st ih =>
    rw [Stack.write] at h
    split at h
    · rename_i h'; cases h; exact ⟨it, .head _, h'.1⟩
    · split at h
      · cases h
      · rename_i st' h1
        obtain ⟨x, h2, h3⟩ := ih h1
        split at h
        · rename_i h4; cases h; exact ⟨x, .tail _ (h4.2.2 ▸ h2), h3⟩
        · split at h
          · cases h
          · cases h; exact ⟨x, h2, h3⟩

/-- Reading through an item among read-only ones changes nothing. -/
theorem Stack.read_among {t : Nat} {new rest r : Stack} (hn : ∀ it ∈ new, it.perm = .sharedRO) (ht : ∀ it ∈ rest, it.tag ≠ t) (h : Stack.read t (new ++ rest) = some r) : r = new ++ rest := by
  induction new generalizing r with
  | nil =>
    obtain ⟨it, h1, h2⟩ := Stack.read_has h
    exact absurd h2 (ht it h1)
  | cons it new ih =>
    rw [List.cons_append, Stack.read] at h
    split at h
    · cases h; rfl
    · have hp := hn it (.head _)
      rw [hp, if_neg (by decide)] at h
      obtain ⟨r', h1, h2⟩ := Option.map_eq_some_iff.1 h
      rw [← h2, ih (fun it hi => hn it (.tail _ hi)) h1]; rfl

/-- Removing what is above an item that is not in `rest` removes nothing of `rest`. -/
theorem Stack.write_among {t : Nat} {new rest w : Stack} (ht : ∀ it ∈ rest, it.tag ≠ t) (h : Stack.write t (new ++ rest) = some w) : ∃ a b, new = a ++ b ∧ w = b ++ rest := by
  obtain ⟨pre, e⟩ := Stack.write_suffix h
  rcases List.append_eq_append_iff.1 e with ⟨a, h1, h2⟩ | ⟨a, h1, h2⟩
  · obtain ⟨it, h3, h4⟩ := Stack.write_has h
    exact absurd h4 (ht it (by rw [h2]; exact List.mem_append_right _ h3))
  · exact ⟨pre, a, h1, h2⟩

end Simd.Borrow

namespace Simd.Spec
open Borrow

/-- What was lent as `l` may be lent on as `l'`: with a tag made since `s`. -/
abbrev Fits (s : State) (l l' : Loan) : Prop :=
  l' = .none ∨ l' = l ∨ (∃ t r, l = .excl t ∧ l' = .excl r ∧ s.next ≤ r) ∨ (∃ t r, l = .shared t ∧ l' = .shared r ∧ s.next ≤ r) ∨ ∃ r, l = .own ∧ l' = .excl r ∧ s.next ≤ r

/-- One step after another: the second one may use tags that the first one made. -/
theorem AfterCall.push {s s1 s2 : State} {G G' : Nat → Nat → Loan} (hs : Sound s) (h1 : AfterCall s s1 G) (h2 : AfterCall s1 s2 G')
    (hG : ∀ b i, Fits s (G b i) (G' b i)) : AfterCall s s2 G := by
  refine ⟨Nat.le_trans h1.next h2.next, h2.frame.trans h1.frame, fun t ht => (h2.home t (Nat.lt_of_lt_of_le ht h1.next)).trans (h1.home t ht), fun b i => ?_⟩
  have a1 := h1.stack b i
  have a2 := h2.stack b i
  have hold : ∀ r, s.next ≤ r → ∀ it ∈ s.stack b i, it.tag ≠ r := fun r hr it hi e => by have := (hs b i it hi).1; omega
  have hmono : ∀ it, NewItem s1 s2 it → NewItem s s2 it := fun it h => NewItem.mono h h1.next (Nat.le_refl _)
  have hmono' : ∀ it, NewItem s s1 it → NewItem s s2 it := fun it h => NewItem.mono h (Nat.le_refl _) h2.next
  rcases hG b i with e | e | ⟨t, r, e, e', hr⟩ | ⟨t, r, e, e', hr⟩ | ⟨r, e, e', hr⟩
  · rw [h2.same e]; exact StackAfter.mono a1 h2.next
  · rw [e] at a2; exact StackAfter.trans a1 a2 h1.next h2.next
  · rw [e'] at a2
    rcases a2 with a2 | ⟨w', new', b1, b2, b3⟩
    · rw [a2]; exact StackAfter.mono a1 h2.next
    · rw [e] at a1 ⊢
      rcases a1 with a1 | ⟨w, new, c1, c2, c3⟩
      · rw [a1] at b1
        obtain ⟨pre, hp⟩ := Stack.write_suffix b1
        obtain ⟨it, d1, d2⟩ := Stack.write_has b1
        exact absurd d2 (hold r hr it (by rw [hp]; exact List.mem_append_right _ d1))
      · rw [c2] at b1
        obtain ⟨pre, hp⟩ := Stack.write_suffix c1
        obtain ⟨x, y, d1, d2⟩ := Stack.write_among (fun it hi => hold r hr it (by rw [hp]; exact List.mem_append_right _ hi)) b1
        refine .inr ⟨w, new' ++ y, c1, by rw [b2, d2, List.append_assoc], fun it hi => ?_⟩
        rcases List.mem_append.1 hi with hi | hi
        · exact hmono _ (b3 it hi)
        · exact hmono' _ (c3 it (by rw [d1]; exact List.mem_append_right _ hi))
  · rw [e'] at a2
    rcases a2 with a2 | ⟨w', new', b1, b2, b3⟩
    · rw [a2]; exact StackAfter.mono a1 h2.next
    · rw [e] at a1 ⊢
      rcases a1 with a1 | ⟨w, new, c1, c2, c3⟩
      · rw [a1] at b1
        obtain ⟨it, d1, d2⟩ := Stack.read_has b1
        exact absurd d2 (hold r hr it d1)
      · rw [c2] at b1
        have d := Stack.read_among (fun it hi => (c3 it hi).2) (fun it hi => by
          obtain ⟨it', d1, d2, -⟩ := Stack.read_mem c1 it hi
          rw [← d2]; exact hold r hr it' d1) b1
        refine .inr ⟨w, new' ++ new, c1, by rw [b2, d, List.append_assoc], fun it hi => ?_⟩
        rcases List.mem_append.1 hi with hi | hi
        · exact ⟨hmono _ (b3 it hi).1, (b3 it hi).2⟩
        · exact ⟨hmono' _ (c3 it hi).1, (c3 it hi).2⟩
  · rw [e'] at a2
    rcases a2 with a2 | ⟨w, new, b1, b2, b3⟩
    · rw [a2]; exact StackAfter.mono a1 h2.next
    · rw [e] at a1 ⊢
      obtain ⟨pre, hp⟩ := Stack.write_suffix b1
      rcases a1 with a1 | a1
      · obtain ⟨it, d1, d2⟩ := Stack.write_has b1
        exact absurd d2 (hold r hr it (by rw [← a1, hp]; exact List.mem_append_right _ d1))
      · refine .inr fun it hi => ?_
        rw [b2] at hi
        rcases List.mem_append.1 hi with hi | hi
        · exact hmono _ (b3 it hi)
        · exact hmono' _ (a1 it (by rw [hp]; exact List.mem_append_right _ hi))

/-- Reading through a reference that is on top is no more than writing through it. -/
theorem AfterCall.promote {s s1 : State} {P : Ptr} {n t : Nat} {G : Nat → Nat → Loan} (ht : ∀ b i, In P n b i → ∃ prot rest, s.stack b i = ⟨.unique, t, prot⟩ :: rest)
    (h : AfterCall s s1 (over P n (.shared t) G)) : AfterCall s s1 (over P n (.excl t) G) := by
  refine ⟨h.next, h.frame, h.home, fun b i => ?_⟩
  have a := h.stack b i
  by_cases hi : In P n b i
  · rw [over_in hi] at a ⊢
    obtain ⟨prot, rest, e⟩ := ht b i hi
    rw [e] at a ⊢
    rcases a with a | ⟨r, new, b1, b2, b3⟩
    · exact .inl a
    · rw [show Stack.read t (⟨.unique, t, prot⟩ :: rest) = _ from Stack.read_top rfl (by simp)] at b1
      cases b1
      exact .inr ⟨_, new, Stack.write_new, b2, fun it hi => (b3 it hi).1⟩
  · rw [over_out hi] at a ⊢; exact a

end Simd.Spec

namespace Simd.Borrow
open Spec

variable {α β : Type}

/-- The result with borrow stacks is the slice that the call returns without them, as a reference to its elements of `k` bytes that nothing else has been derived from. -/
def Ret (k : Nat) (s : State) (r r' : Slice) : Prop := r' = ⟨place s r.ptr, r.len⟩ ∧ r.ptr.buf < s.next ∧ OnTop s .unique r.ptr (k * r.len)

theorem Ret.ret {s : State} {k : Nat} {r r' : Slice} (h : Ret k s r r') : Ret k s.ret r r' := ⟨h.1, h.2.1, OnTop.ret h.2.2⟩

/-- What the body of a function with a source and a destination has been lent. -/
abbrev G2 (P : Ptr) (n t : Nat) (Q : Ptr) (d u : Nat) : Nat → Nat → Loan := over P n (.shared t) (over Q d (.excl u) nothing)
/-- What a function that works in place has been lent. -/
abbrev G1 (P : Ptr) (n t : Nat) : Nat → Nat → Loan := over P n (.excl t) nothing
/-- What a function that only reads has been lent. -/
abbrev G0 (P : Ptr) (n t : Nat) : Nat → Nat → Loan := over P n (.shared t) nothing

theorem over_pt (P : Ptr) (n : Nat) (l : Loan) (G : Nat → Nat → Loan) (b i : Nat) : over P n l G b i = l ∧ In P n b i ∨ over P n l G b i = G b i ∧ ¬ In P n b i := by
  by_cases h : In P n b i
  · exact .inl ⟨over_in h, h⟩
  · exact .inr ⟨over_out h, h⟩

theorem noOverlap_pt {P Q : Ptr} {n d b i : Nat} (ho : NoOverlap P n Q d) (h : In P n b i) (h' : In Q d b i) : False :=
  ho (i - P.off) (i - Q.off) (by have := h.2; omega) (by have := h'.2; omega) ⟨h.1.symm.trans h'.1, by have := h.2; have := h'.2; omega⟩

/-- Lending the source only. -/
theorem G2_src {P : Ptr} {n t : Nat} {Q : Ptr} {d u : Nat} (b i : Nat) : G0 P n t b i = .none ∨ G0 P n t b i = G2 P n t Q d u b i := by
  by_cases h : In P n b i
  · exact .inr ((over_in h).trans (over_in h).symm)
  · exact .inl (over_out h)

/-- Lending the destination only. -/
theorem G2_dst {P : Ptr} {n t : Nat} {Q : Ptr} {d u m : Nat} (ho : NoOverlap P n Q d) (hm : m ≤ d) (b i : Nat) : G1 Q m u b i = .none ∨ G1 Q m u b i = G2 P n t Q d u b i := by
  by_cases h : In Q m b i
  · exact .inr ((over_in h).trans ((over_out fun h' => noOverlap_pt ho h' (in_mono hm h)).trans (over_in (in_mono hm h))).symm)
  · exact .inl (over_out h)

theorem none_or {G G' : Nat → Nat → Loan} {s : State} (h : ∀ b i, G' b i = .none ∨ G' b i = G b i) (b i : Nat) :
    Fits s (G b i) (G' b i) :=
  (h b i).imp id .inl

theorem nothing_or {G : Nat → Nat → Loan} (b i : Nat) : nothing b i = .none ∨ nothing b i = G b i := .inl rfl

/-- Lending a part of the destination with a newer tag. -/
theorem G1_new {P : Ptr} {n t m r : Nat} {s : State} (hm : m ≤ n) (hr : s.next ≤ r) (b i : Nat) :
    Fits s (G1 P n t b i) (G1 P m r b i) := by
  by_cases h : In P m b i
  · exact .inr (.inr (.inl ⟨t, r, over_in (in_mono hm h), over_in h, hr⟩))
  · exact .inl (over_out h)

theorem G1_part {P : Ptr} {n t m : Nat} (hm : m ≤ n) (b i : Nat) : G1 P m t b i = .none ∨ G1 P m t b i = G1 P n t b i := by
  by_cases h : In P m b i
  · exact .inr ((over_in h).trans (over_in (in_mono hm h)).symm)
  · exact .inl (over_out h)

theorem G2_readable {s s1 : State} {p : Ptr} {n d u : Nat} {Q : Ptr} (h : AfterCall s s1 (G2 (place s p) n p.buf Q d u)) (hp : p.buf < s.next) (hr : Readable s p n) : Readable s1 p n :=
  h.readable hp (fun _ _ hi => .inr (over_in hi)) hr

theorem G2_mutable {s s1 : State} {q : Ptr} {n d t : Nat} {P : Ptr} (ho : NoOverlap P n (place s q) d) (h : AfterCall s s1 (G2 P n t (place s q) d q.buf)) (hq : q.buf < s.next) (hr : Mutable s q d) :
    Mutable s1 q d :=
  h.mutable hq (fun b i hi => .inr ((over_out fun h' => noOverlap_pt ho h' hi).trans (over_in hi))) hr

theorem G0_readable {s s1 : State} {p : Ptr} {n : Nat} (h : AfterCall s s1 (G0 (place s p) n p.buf)) (hp : p.buf < s.next) (hr : Readable s p n) : Readable s1 p n :=
  h.readable hp (fun _ _ hi => .inr (over_in hi)) hr

theorem G1_mutable {s s1 : State} {p : Ptr} {n : Nat} (h : AfterCall s s1 (G1 (place s p) n p.buf)) (hp : p.buf < s.next) (hr : Mutable s p n) : Mutable s1 p n :=
  h.mutable hp (fun _ _ hi => .inr (over_in hi)) hr

theorem AfterCall.place {s s1 : State} {G : Nat → Nat → Loan} (h : AfterCall s s1 G) {p : Ptr} (hp : p.buf < s.next) : place s1 p = place s p := by
  unfold Spec.place; rw [h.home _ hp]

theorem Quiet.after {s s1 : State} {G : Nat → Nat → Loan} (h : AfterCall s s1 G) {p : Ptr} {n : Nat} (hp : p.buf < s.next) (hG : ∀ b i, In (place s p) n b i → G b i = .none) (hq : Quiet s p n) : Quiet s1 p n :=
  fun b i hi => by
    rw [AfterCall.place h hp] at hi
    rw [h.same (hG b i hi)]; exact hq b i hi

/-- Making a raw pointer to the source. -/
def IsRaw (mk : Ptr → Nat → BProg Ptr) : Prop := mk = as_ptr ∨ mk = slice_parts

theorem IsRaw.sim {mk : Ptr → Nat → BProg Ptr} (h : IsRaw mk) {s : State} {p : Ptr} {n : Nat} (hs : Sound s) (hr : Readable s p n) :
    Sim (mk p n s) (.ok () s.mem) (fun r _ s' => AfterCall s s' (G0 (place s p) n p.buf) ∧ Derived s s' p r ∧ Quiet s' r n) (fun _ => True) := by
  rcases h with rfl | rfl
  · exact as_ptr_sim hs hr
  · exact slice_parts_sim hs hr

/-- `let r ← mk p n; K r`, where `K` only reads. -/
theorem check_tail {mk : Ptr → Nat → BProg Ptr} (hmk : IsRaw mk) {K : Ptr → Prog β} {s : State} {p P : Ptr} {n : Nat} (hs : Sound s) (hr : Readable s p n) (eP : place s p = P)
    (hG : Good1 K P n s.mem) (hF : ∀ ρ a, RenE ρ (K ⟨a, P.off⟩) (K ⟨ρ a, P.off⟩)) (hu : ∀ a : Ptr, Uses' (· = a.buf) (fun _ => False) (K a)) :
    Sim ((mk p n >>= fun r => prog (K r)) s) ((K P).run s.mem) (fun v v' s' => v = v' ∧ AfterCall s s' (G0 P n p.buf)) (fun s' => AfterCall s s' (G0 P n p.buf)) := by
  subst eP
  refine Sim.left (hmk.sim hs hr) ?_
  rintro r s1 hm ⟨h1, h2, h3⟩
  rw [← hm] at hG ⊢
  exact (kern1_read (R := fun _ => Eq) h2.place hG hF (hu r) h3).mono (fun v v' s' ⟨e, _, h⟩ => ⟨e, h1.push hs h (none_or nothing_or)⟩) fun s' ⟨_, h⟩ => h1.push hs h (none_or nothing_or)

/-- A call of a function that gets `&src` and only reads it. -/
theorem read_call {K : Ptr → Prog β} {s : State} {p P : Ptr} {n : Nat} (hs : Sound s) (hr : Readable s p n) (eP : place s p = P)
    (hk : ∀ s1 : State, s1.mem = s.mem → place s1 ⟨s.next, p.off⟩ = P → (∀ t, t < s.next → s1.home t = s.home t) → Quiet s1 ⟨s.next, p.off⟩ n →
      Sim (prog (K ⟨s.next, p.off⟩) s1) ((K P).run s1.mem) (fun v v' s' => v = v' ∧ s'.next = s1.next ∧ AfterCall s1 s' nothing) (fun s' => s'.next = s1.next ∧ AfterCall s1 s' nothing)) :
    Sim (call (arg .shared p n >>= fun p => prog (K p)) s) ((K P).run s.mem) (fun v v' s' => v = v' ∧ AfterCall s s' (G0 P n p.buf)) (fun s' => AfterCall s s' (G0 P n p.buf)) := by
  subst eP
  refine (call_sim (k := .shared) (G := nothing) (Q := fun v v' _ => v = v') (E := fun _ => True) (.inr rfl) hs hr fun s1 hm hs1 h => ?_).mono (fun _ _ _ h => ⟨h.2, h.1⟩) fun _ h => h.1
  rw [← hm]
  refine (hk s1 hm h.place_new (fun t ht => h.home_old ht) fun b i hi => ?_).mono (fun v v' s' h => ⟨h.2.2.weaken nothing_or, h.1⟩) fun s' h => ⟨h.2.weaken nothing_or, trivial⟩
  rw [h.place_new] at hi
  obtain ⟨rest, e, -⟩ := h.top_shared (.inl rfl) hi
  rw [e, Stack.read_new]

theorem read_call1 {K : Ptr → Prog β} {s : State} {p P : Ptr} {n : Nat} (hs : Sound s) (hr : Readable s p n) (eP : place s p = P) (hG : Good1 K P n s.mem)
    (hF : ∀ ρ a, RenE ρ (K ⟨a, P.off⟩) (K ⟨ρ a, P.off⟩)) (hu : ∀ a : Ptr, Uses' (· = a.buf) (fun _ => False) (K a)) :
    Sim (call (arg .shared p n >>= fun p => prog (K p)) s) ((K P).run s.mem) (fun v v' s' => v = v' ∧ AfterCall s s' (G0 P n p.buf)) (fun s' => AfterCall s s' (G0 P n p.buf)) :=
  read_call hs hr eP fun s1 hm hP _ hq => kern1_read (R := fun _ => Eq) hP (hm ▸ hG) hF (hu _) hq

theorem read_call2 {K : Ptr → Prog β} {s : State} {p q P Q : Ptr} {n d : Nat} (hs : Sound s) (hr : Readable s p n) (eP : place s p = P) (eQ : place s q = Q) (hq : q.buf < s.next)
    (ho : NoOverlap P n Q d) (hG : Good2 (fun p _ => K p) P n Q d s.mem)
    (hF : ∀ ρ a, RenE ρ (K ⟨a, P.off⟩) (K ⟨ρ a, P.off⟩)) (hu : ∀ a : Ptr, Uses' (· = a.buf) (fun _ => False) (K a)) :
    Sim (call (arg .shared p n >>= fun p => prog (K p)) s) ((K P).run s.mem) (fun v v' s' => v = v' ∧ AfterCall s s' (G0 P n p.buf)) (fun s' => AfterCall s s' (G0 P n p.buf)) :=
  read_call hs hr eP fun s1 hm hP hh hqq => kern2_read (R := fun _ _ => Eq) (b := q.buf) hP (hm ▸ hG) hF (hu _) (by rw [hh _ hq, ← eQ]; rfl) (Nat.ne_of_gt hq) ho hqq

/-- `let r ← mk p n; K r q`, where `K` reads the source and writes the destination. -/
theorem copy_kern {mk : Ptr → Nat → BProg Ptr} (hmk : IsRaw mk) {K : Ptr → Ptr → Prog β} {s : State} {p q P Q : Ptr} {n d : Nat} (hs : Sound s) (hr : Readable s p n) (hm : Mutable s q d)
    (hq : q.buf < s.next) (eP : place s p = P) (eQ : place s q = Q) (ho : NoOverlap P n Q d) (hG : Good2 K P n Q d s.mem)
    (hF : ∀ ρ a b, RenE ρ (K ⟨a, P.off⟩ ⟨b, Q.off⟩) (K ⟨ρ a, P.off⟩ ⟨ρ b, Q.off⟩)) (hu : ∀ a b : Ptr, Uses' (· = a.buf) (· = b.buf) (K a b)) :
    Sim ((mk p n >>= fun r => prog (K r q)) s) ((K P Q).run s.mem) (fun v v' s' => v = v' ∧ AfterCall s s' (G2 P n p.buf Q d q.buf)) (fun s' => AfterCall s s' (G2 P n p.buf Q d q.buf)) := by
  subst eP eQ
  refine Sim.left (hmk.sim hs hr) ?_
  rintro r s1 hm' ⟨h1, h2, h3⟩
  rw [← hm'] at hG ⊢
  have h1' := h1.weaken (G2_src (Q := place s q) (d := d) (u := q.buf))
  have hd := none_or (s := s) (G2_dst (P := place s p) (n := n) (t := p.buf) (u := q.buf) ho (Nat.le_refl d))
  exact (kern2 (R := fun _ => Eq) h2.place (AfterCall.place h1 hq) hG hF (hu r q) (by have := h2.lo; omega) ho h3 (G2_mutable ho h1' hq hm)).mono (fun v v' s' ⟨e, _, h⟩ => ⟨e, h1'.push hs h hd⟩)
    fun s' ⟨_, h⟩ => h1'.push hs h hd

/-- `let r ← slice_mut q m; return ⟨r, l⟩`. -/
theorem copy_end {s : State} {q Q : Ptr} {m l k : Nat} (hk : m = k * l) (hm : Mutable s q m) (eQ : place s q = Q) {E : State → Prop} :
    Sim ((slice_mut q m >>= fun r => pure ⟨r, l⟩) s) ((pure ⟨Q, l⟩ : Prog Slice).run s.mem) (fun r r' s' => AfterCall s s' (G1 Q m q.buf) ∧ s.next ≤ r.ptr.buf ∧ Ret k s' r r') E := by
  subst eQ
  refine Sim.left (slice_mut_sim hm) ?_
  rintro r s1 hm' ⟨h1, h2, h3⟩
  rw [← hm']
  refine Sim.ret ⟨h1, h2.lo, ?_, h2.hi, hk ▸ h3⟩
  rw [h2.place]

/-- The body of a copying function from where the raw pointer is made. -/
theorem copy_tail {mk : Ptr → Nat → BProg Ptr} (hmk : IsRaw mk) {K : Ptr → Ptr → Prog Unit} {s : State} {p q P Q : Ptr} {n d m l k : Nat} (hk : m = k * l) (hs : Sound s) (hr : Readable s p n) (hm : Mutable s q d)
    (hq : q.buf < s.next) (eP : place s p = P) (eQ : place s q = Q) (ho : NoOverlap P n Q d) (hmd : m ≤ d) (hG : Good2 K P n Q d s.mem)
    (hF : ∀ ρ a b, RenE ρ (K ⟨a, P.off⟩ ⟨b, Q.off⟩) (K ⟨ρ a, P.off⟩ ⟨ρ b, Q.off⟩)) (hu : ∀ a b : Ptr, Uses' (· = a.buf) (· = b.buf) (K a b)) :
    Sim ((do let r ← mk p n; prog (K r q); let r ← slice_mut q m; return ⟨r, l⟩ : BProg Slice) s) ((do K P Q; return ⟨Q, l⟩ : Prog Slice).run s.mem)
      (fun r r' s' => AfterCall s s' (G2 P n p.buf Q d q.buf) ∧ Ret k s' r r') (fun s' => AfterCall s s' (G2 P n p.buf Q d q.buf)) := by
  have key := copy_kern hmk hs hr hm hq eP eQ ho hG hF hu
  have := Sim.bind (f := fun _ => slice_mut q m >>= fun r => pure (⟨r, l⟩ : Slice)) (g := fun _ => (pure ⟨Q, l⟩ : Prog Slice))
    (Q' := fun r r' s' => AfterCall s s' (G2 P n p.buf Q d q.buf) ∧ Ret k s' r r') key fun _ _ s1 _ h => by
      subst eP eQ
      refine (copy_end (E := fun _ => False) hk ((G2_mutable ho h.2 hq hm).mono hmd) (AfterCall.place h.2 hq)).mono (fun r r' s' h' => ⟨h.2.push hs h'.1 (none_or (G2_dst ho hmd)), h'.2.2⟩) fun _ h => h.elim
  have e : ((mk p n >>= fun r => prog (K r q)) >>= fun _ => slice_mut q m >>= fun r => pure (⟨r, l⟩ : Slice)) s = (do let r ← mk p n; prog (K r q); let r ← slice_mut q m; return ⟨r, l⟩ : BProg Slice) s := by
    show BProg.bind (BProg.bind _ _) _ s = BProg.bind _ _ s
    unfold BProg.bind
    cases mk p n s <;> rfl
  rw [e] at this
  exact this

/-- The body of an in-place function from where the raw pointer is made. -/
theorem inplace_kern {K : Ptr → Prog β} {s : State} {p P : Ptr} {n : Nat} (hs : Sound s) (hm : Mutable s p n) (eP : place s p = P) (hG : Good1 K P n s.mem)
    (hF : ∀ ρ a, RenE ρ (K ⟨a, P.off⟩) (K ⟨ρ a, P.off⟩)) (hu : ∀ a : Ptr, Uses' (· = a.buf) (· = a.buf) (K a)) {C : Ptr → β → BProg α} {o : β → Prog α} {Q : α → α → State → Prop} {E : State → Prop}
    (hC : ∀ v r s1, AfterCall s s1 (G1 P n p.buf) → s.next ≤ r.buf → r.buf < s1.next → place s1 r = P → OnTop s1 .sharedRW r n → (K P).run s.mem = .ok v s1.mem → Sim (C r v s1) ((o v).run s1.mem) Q E)
    (hE : ∀ s1, AfterCall s s1 (G1 P n p.buf) → E s1) :
    Sim ((as_mut_ptr p n >>= fun r => prog (K r) >>= C r) s) ((K P >>= o).run s.mem) Q E := by
  subst eP
  refine Sim.left (as_mut_ptr_sim hs hm) ?_
  rintro r s1 hm' ⟨h1, h2, h3⟩
  rw [← hm'] at hG ⊢
  refine Sim.bind ((kern1 (R := fun _ => Eq) h2.place hG hF (hu r) h3).mono (fun _ _ _ h => h) fun s' ⟨_, h⟩ => hE s' (h1.push hs h (none_or nothing_or))) ?_
  rintro v v' s2 hrun ⟨rfl, hn, h⟩
  refine hC v r s2 (h1.push hs h (none_or nothing_or)) h2.lo (by have := h2.hi; omega) ((AfterCall.place h h2.hi).trans h2.place) (fun b i hi => ?_) (hm' ▸ hrun)
  rw [AfterCall.place h h2.hi] at hi
  rw [h.same rfl]; exact h3 b i hi

/-- `as_mut_ptr`, work, `slice_mut`. -/
theorem inplace_tail {K : Ptr → Prog Unit} {s : State} {p P : Ptr} {n m l k : Nat} (hk : m = k * l) (hs : Sound s) (hm : Mutable s p n) (eP : place s p = P) (hmn : m ≤ n) (hG : Good1 K P n s.mem)
    (hF : ∀ ρ a, RenE ρ (K ⟨a, P.off⟩) (K ⟨ρ a, P.off⟩)) (hu : ∀ a : Ptr, Uses' (· = a.buf) (· = a.buf) (K a)) :
    Sim ((do let dst ← as_mut_ptr p n; prog (K dst); let r ← slice_mut dst m; return ⟨r, l⟩ : BProg Slice) s) ((do K P; return ⟨P, l⟩ : Prog Slice).run s.mem)
      (fun r r' s' => AfterCall s s' (G1 P n p.buf) ∧ Ret k s' r r') (fun s' => AfterCall s s' (G1 P n p.buf)) :=
  inplace_kern hs hm eP hG hF hu (fun v r s1 h1 h2 h3 h4 h5 _ =>
    (copy_end (E := fun _ => False) hk ((OnTop.mutable h5 (.inr rfl)).mono hmn) h4).mono (fun r r' s' h' => ⟨h1.push hs h'.1 (G1_new hmn h2), h'.2.2⟩) fun _ h => h.elim) fun _ h => h

/-- `Sim.bind` for two steps of the program with borrow stacks. -/
theorem Sim.bind2 {α' γ δ : Type} {x : BProg α'} {f : α' → BProg α} {h : α → BProg γ} {y : Prog β} {g : β → Prog δ} {s : State} {m : Mem} {Q : α → β → State → Prop} {E : State → Prop}
    {Q' : γ → δ → State → Prop} (hx : Sim ((x >>= f) s) (y.run m) Q E) (hf : ∀ a b s', y.run m = .ok b s'.mem → Q a b s' → Sim (h a s') ((g b).run s'.mem) Q' E) :
    Sim ((x >>= fun a => f a >>= h) s) ((y >>= g).run m) Q' E := by
  have := Sim.bind hx hf
  have e : ((x >>= f) >>= h) s = (x >>= fun a => f a >>= h) s := by
    show BProg.bind (BProg.bind _ _) _ s = BProg.bind _ _ s
    unfold BProg.bind
    cases x s <;> rfl
  rwa [e] at this

theorem prog_bind (x : Prog α) (f : α → Prog β) : prog (x >>= f) = prog x >>= fun a => prog (f a) := by
  funext s
  show prog (Prog.bind x f) s = BProg.bind (prog x) _ s
  induction x generalizing s with
  | load p n k ih =>
    show prog (.load p n fun bs => (k bs).bind f) s = _
    unfold BProg.bind prog
    cases s.touch (Stack.read p.buf) p n with
    | none => rfl
    | some S =>
      cases s.mem.read ⟨s.home p.buf, p.off⟩ n with
      | none => rfl
      | some bs => exact ih bs _
  | store p bs k ih =>
    show prog (.store p bs (k.bind f)) s = _
    unfold BProg.bind prog
    cases s.touch (Stack.write p.buf) p bs.length with
    | none => rfl
    | some S =>
      dsimp only
      split
      · exact ih _
      · rfl
  | chk p k ih =>
    show prog (.chk p (k.bind f)) s = _
    unfold BProg.bind prog
    split
    · exact ih _
    · rfl
  | alloc n k ih => exact ih _ _
  | _ => rfl

theorem _root_.Simd.Prog.assoc {γ : Type} (x : Prog α) (f : α → Prog β) (g : β → Prog γ) : ((x >>= f) >>= g) = x >>= fun a => f a >>= g := by
  show Prog.bind (Prog.bind x f) g = Prog.bind x fun a => Prog.bind (f a) g
  induction x with
  | load p n k ih => simp only [Prog.bind]; congr 1; funext bs; exact ih bs
  | store p bs k ih => simp only [Prog.bind]; rw [ih]
  | chk p k ih => simp only [Prog.bind]; rw [ih]
  | alloc n k ih => simp only [Prog.bind]; congr 1; funext bs; exact ih bs
  | _ => rfl

/-! ### Whole functions -/

/-- A function that gets `&src` and a destination. -/
theorem copy_call {body : Ptr → BProg α} {y : Prog β} {s : State} {p q P Q : Ptr} {n d : Nat} {R : State → α → β → Prop} (hR : ∀ s a b, R s a b → R s.ret a b) (hs : Sound s) (hr : Readable s p n) (hm : Mutable s q d)
    (hq : q.buf < s.next) (eP : place s p = P) (eQ : place s q = Q) (ho : NoOverlap P n Q d)
    (hb : ∀ s1 p1, s1.mem = s.mem → Sound s1 → Readable s1 p1 n → Mutable s1 q d → q.buf < s1.next → p1.buf < s1.next → place s1 p1 = P → place s1 q = Q →
      Sim (body p1 s1) (y.run s1.mem) (fun r r' s' => AfterCall s1 s' (G2 P n p1.buf Q d q.buf) ∧ R s' r r') (fun s' => AfterCall s1 s' (G2 P n p1.buf Q d q.buf))) :
    Sim (call (arg .shared p n >>= body) s) (y.run s.mem) (fun r r' s' => AfterCall s s' (G2 P n p.buf Q d q.buf) ∧ R s' r r') (fun s' => AfterCall s s' (G2 P n p.buf Q d q.buf)) := by
  subst eP eQ
  refine (call_sim (k := .shared) (G := over (place s q) d (.excl q.buf) nothing) (Q := fun v v' s => R s v v') (E := fun _ => True) (.inr rfl) hs hr fun s1 hm1 hs1 h => ?_).mono (fun _ _ _ h => h) fun _ h => h.1
  rw [← hm1]
  have hn : s1.next = s.next + 1 := h.next
  have hpq : place s1 q = place s q := h.place_old hq
  refine (hb s1 ⟨s.next, p.off⟩ hm1 hs1 (fun b i hi => ?_) (fun b i hi => ?_) (by omega) (by show s.next < s1.next; omega) h.place_new hpq).mono (fun v v' s' h => ⟨h.1, hR _ _ _ h.2⟩) fun s' h => ⟨h, trivial⟩
  · rw [h.place_new] at hi
    obtain ⟨rest, e, -⟩ := h.top_shared (.inl rfl) hi
    rw [e, Stack.read_new]; rfl
  · rw [hpq] at hi
    rw [h.outside b i fun h' => noOverlap_pt ho h' hi]; exact hm b i hi

/-- A function that gets `&data` only. -/
theorem check_call {body : Ptr → BProg α} {y : Prog β} {s : State} {p P : Ptr} {n : Nat} {R : State → α → β → Prop} (hR : ∀ s a b, R s a b → R s.ret a b) (hs : Sound s) (hr : Readable s p n) (eP : place s p = P)
    (hb : ∀ s1 p1, s1.mem = s.mem → Sound s1 → Readable s1 p1 n → s.next ≤ s1.next → p1.buf < s1.next → place s1 p1 = P →
      Sim (body p1 s1) (y.run s1.mem) (fun v v' s' => R s' v v' ∧ AfterCall s1 s' (G0 P n p1.buf)) (fun s' => AfterCall s1 s' (G0 P n p1.buf))) :
    Sim (call (arg .shared p n >>= body) s) (y.run s.mem) (fun v v' s' => R s' v v' ∧ AfterCall s s' (G0 P n p.buf)) (fun s' => AfterCall s s' (G0 P n p.buf)) := by
  subst eP
  refine (call_sim (k := .shared) (G := nothing) (Q := fun v v' s => R s v v') (E := fun _ => True) (.inr rfl) hs hr fun s1 hm1 hs1 h => ?_).mono (fun _ _ _ h => ⟨h.2, h.1⟩) fun _ h => h.1
  rw [← hm1]
  have hn : s1.next = s.next + 1 := h.next
  refine (hb s1 ⟨s.next, p.off⟩ hm1 hs1 (fun b i hi => ?_) (by omega) (by show s.next < s1.next; omega) h.place_new).mono (fun v v' s' h => ⟨h.2, hR _ _ _ h.1⟩) fun s' h => ⟨h, trivial⟩
  rw [h.place_new] at hi
  obtain ⟨rest, e, -⟩ := h.top_shared (.inl rfl) hi
  rw [e, Stack.read_new]; rfl

/-- A function that gets `&mut data`. -/
theorem inplace_call {body : Ptr → BProg α} {y : Prog β} {s : State} {p P : Ptr} {n : Nat} {R : State → α → β → Prop} (hR : ∀ s a b, R s a b → R s.ret a b) (hs : Sound s) (hm : Mutable s p n) (eP : place s p = P)
    (hb : ∀ s1 p1, s1.mem = s.mem → Sound s1 → Mutable s1 p1 n → s.next ≤ p1.buf → p1.buf < s1.next → place s1 p1 = P → (∀ b i, In P n b i → ∃ prot rest, s1.stack b i = ⟨.unique, p1.buf, prot⟩ :: rest) →
      Sim (body p1 s1) (y.run s1.mem) (fun r r' s' => AfterCall s1 s' (G1 P n p1.buf) ∧ R s' r r') (fun s' => AfterCall s1 s' (G1 P n p1.buf))) :
    Sim (call (arg .mut p n >>= body) s) (y.run s.mem) (fun r r' s' => AfterCall s s' (G1 P n p.buf) ∧ R s' r r') (fun s' => AfterCall s s' (G1 P n p.buf)) := by
  subst eP
  refine (call_sim (k := .mut) (G := nothing) (Q := fun v v' s => R s v v') (E := fun _ => True) (.inl rfl) hs hm fun s1 hm1 hs1 h => ?_).mono (fun _ _ _ h => h) fun _ h => h.1
  rw [← hm1]
  have hn : s1.next = s.next + 1 := h.next
  refine (hb s1 ⟨s.next, p.off⟩ hm1 hs1 (fun b i hi => ?_) (Nat.le_refl _) (by show s.next < s1.next; omega) h.place_new (fun b i hi => ?_)).mono (fun v v' s' h => ⟨h.1, hR _ _ _ h.2⟩) fun s' h => ⟨h, trivial⟩
  · rw [h.place_new] at hi
    obtain ⟨rest, e, -⟩ := h.top_mut hi
    rw [e, Stack.write_new]; rfl
  · obtain ⟨rest, e, -⟩ := h.top_mut hi
    exact ⟨_, rest, e⟩

/-- In a function that works in place: a call that gets `&*data` and only reads. -/
theorem inplace_read {x : Ptr → BProg α} {y : Prog β} {s : State} {p P : Ptr} {n : Nat} {R : α → β → Prop} (hs : Sound s) (eP : place s p = P) (ht : ∀ b i, In P n b i → ∃ prot rest, s.stack b i = ⟨.unique, p.buf, prot⟩ :: rest)
    (hx : ∀ s1 c, s1.mem = s.mem → Sound s1 → Readable s1 c n → c.buf < s1.next → place s1 c = P → Sim (x c s1) (y.run s1.mem) (fun v v' s' => R v v' ∧ AfterCall s1 s' (G0 P n c.buf)) (fun s' => AfterCall s1 s' (G0 P n c.buf))) :
    Sim ((retag .shared p n >>= x) s) (y.run s.mem) (fun v v' s' => R v v' ∧ AfterCall s s' (G1 P n p.buf)) (fun s' => AfterCall s s' (G1 P n p.buf)) := by
  subst eP
  refine Sim.left (x := retag .shared p n) (E' := fun _ => False) (retag_sim fun b i hi => ?_) ?_
  · obtain ⟨prot, rest, e⟩ := ht b i hi
    rw [Kind.apply, e, show Stack.read p.buf (⟨.unique, p.buf, prot⟩ :: rest) = _ from Stack.read_top rfl (by simp)]; rfl
  rintro _ s1 hm ⟨rfl, h⟩
  rw [← hm]
  have hn : s1.next = s.next + 1 := h.next
  have key : ∀ s', AfterCall s1 s' (G0 (place s p) n s.next) → AfterCall s s' (G1 (place s p) n p.buf) := fun s' h' => AfterCall.promote ht (h.under (.inr (.inl rfl)) h')
  refine (hx s1 ⟨s.next, p.off⟩ hm (h.sound hs (by decide) (fun f hf => by cases hf)) (fun b i hi => ?_) (by show s.next < s1.next; omega) h.place_new).mono
    (fun v v' s' h => ⟨h.1, key _ h.2⟩) fun s' h => key _ h
  rw [h.place_new] at hi
  obtain ⟨rest, e, -⟩ := h.top_shared (.inl rfl) hi
  rw [e, Stack.read_new]; rfl

/-! ### From what is known about calls -/

theorem good2_of {F : Ptr → Ptr → Prog α} {n d : Nat} {xs : List Byte} (hl : xs.length = n)
    (hF : ∀ m p q, Reads m p xs → Writable m q d → NoOverlap p n q d → Fine (F p q) m p n q d) {M : Mem} {P Q : Ptr} (hr : Reads M P xs) (hw : Writable M Q d) (ho : NoOverlap P n Q d) :
    Good2 F P n Q d M := fun ρ a b hab ha hb => by
  have h := hF (M.pull ρ) ⟨a, P.off⟩ ⟨b, Q.off⟩ (by unfold Reads Mem.pull; dsimp only; rw [ha]; exact hr) (by unfold Writable Mem.pull; dsimp only; rw [hb]; exact hw) (fun i j _ _ e => hab e.1)
  refine ⟨M.pull ρ, fun _ => rfl, fun _ _ _ => rfl, fun c hc => ?_, h.noalloc, h.safe, (hF M P Q hr hw ho).safe⟩
  have := h.inside c hc
  cases c with
  | load r k => exact fun b i hi => this b i hi
  | store r k => exact fun b i hi => .inr (this b i hi)

theorem good1_of {F : Ptr → Prog α} {n : Nat} {xs : List Byte} (hF : ∀ m p, Reads m p xs → ∃ r q, Fine (F p) m r 0 p n ∨ Fine (F p) m p n q 0) {M : Mem} {P : Ptr} (hr : Reads M P xs) :
    Good1 F P n M := fun ρ a ha => by
  obtain ⟨r, q, h⟩ := hF (M.pull ρ) ⟨a, P.off⟩ (by unfold Reads Mem.pull; dsimp only; rw [ha]; exact hr)
  obtain ⟨r', q', h'⟩ := hF M P hr
  refine ⟨M.pull ρ, fun _ => rfl, fun _ _ _ => rfl, fun c hc => ?_, h.elim Fine.noalloc Fine.noalloc, h.elim Fine.safe Fine.safe, h'.elim Fine.safe Fine.safe⟩
  have he : ∀ {r : Ptr} {b i : Nat}, ¬ In r 0 b i := fun h => by have := h.2; omega
  rcases h with h | h
  · have := h.inside c hc
    cases c with
    | load r k => exact fun b i hi => (this b i hi).resolve_left he
    | store r k => exact fun b i hi => this b i hi
  · have := h.inside c hc
    cases c with
    | load r k => exact fun b i hi => (this b i hi).resolve_right he
    | store r k => exact fun b i hi => (he (this b i hi)).elim

end Simd.Borrow
