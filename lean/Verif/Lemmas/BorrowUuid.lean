import Verif.Lemmas.BorrowFns2
/-
`parse` of uuid-simd with borrow stacks.
-/
namespace Simd

theorem Prog.bind_ret {α : Type} (x : Prog α) : (x >>= pure) = x := by
  show Prog.bind x Prog.pure = x
  induction x with
  | load p n k ih => simp only [Prog.bind]; congr 1; funext bs; exact ih bs
  | store p bs k ih => simp only [Prog.bind]; rw [ih]
  | chk p k ih => simp only [Prog.bind]; rw [ih]
  | alloc n k ih => simp only [Prog.bind]; congr 1; funext bs; exact ih bs
  | _ => rfl

unseal Uses in
theorem Uses.keeps {α : Type} {L : Nat → Prop} {R : α → Prop} {x : Prog α} (h : Uses L (fun _ => False) R x) {m m' : Mem} {a : α} (hx : x.run m = .ok a m') : m' = m := by
  induction x generalizing m with
  | pure a => cases hx; rfl
  | load p n k ih =>
    simp only [Prog.run] at hx
    split at hx
    · exact ih _ (And.right h _) hx
    · cases hx
  | store p bs k ih => exact False.elim (And.left h)
  | chk p k ih =>
    simp only [Prog.run] at hx
    split at hx
    · exact ih h hx
    · cases hx
  | alloc n k ih => exact False.elim h
  | _ => cases hx

namespace Borrow
open Spec

variable {s : State} {p q P Q : Ptr} {n d : Nat}

theorem BProg.assoc {α β γ : Type} (x : BProg α) (f : α → BProg β) (g : β → BProg γ) : ((x >>= f) >>= g) = x >>= fun a => f a >>= g := by
  funext s
  show BProg.bind (BProg.bind _ _) _ s = BProg.bind _ _ s
  unfold BProg.bind
  cases x s <;> rfl

theorem Sim.cast {α β γ : Type} {r : Result α} {v : β} {w : γ} {m : Mem} {R : α → β → State → Prop} {E E' : State → Prop} (h : Sim r (.ok v m) R E) : Sim r (.ok w m) (fun a b s => b = w ∧ R a v s) E' := by
  cases r <;> first | exact ⟨h.1, rfl, h.2⟩ | exact h

namespace Uuid

theorem ren_strip (ρ : Nat → Nat) (a o : Nat) :
    Ren ρ (fun v v' : Ptr => v = ⟨a, o + 9⟩ ∧ v' = ⟨ρ a, o + 9⟩) (Simd.Uuid.hyphenated_start ⟨⟨a, o⟩, 45⟩) (Simd.Uuid.hyphenated_start ⟨⟨ρ a, o⟩, 45⟩) :=
  Ren.seq (Ren.loadBytes _ _ _) fun _ => Ren.seq (Ren.ensure _) fun _ => Ren.ret ⟨rfl, rfl⟩

theorem hsub {b i : Nat} (hi : In (P.add 9) 36 b i) : In P 45 b i :=
  ⟨hi.1, by have := hi.2.1; unfold Ptr.add at this; dsimp only at this; omega, by have := hi.2.2; unfold Ptr.add at this; dsimp only at this; omega⟩

theorem strip_sim (hs : Sound s) (hr : Readable s p 45) (eP : place s p = P) (eQ : place s q = Q) (hq : q.buf < s.next) (ho : NoOverlap P 45 Q 16)
    (hG : Good2 (fun p _ => Simd.Uuid.hyphenated_start ⟨p, 45⟩) P 45 Q 16 s.mem) :
    Sim (call (arg .shared p 45 >>= fun p => prog (Simd.Uuid.hyphenated_start ⟨p, 45⟩) >>= fun r => retag .shared r 36) s) ((Simd.Uuid.hyphenated_start ⟨P, 45⟩).run s.mem)
      (fun v v' s' => AfterCall s s' (G0 P 45 p.buf) ∧ v' = P.add 9 ∧ place s' v = P.add 9 ∧ s.next ≤ v.buf ∧ v.buf < s'.next ∧ Quiet s' v 36) (fun s' => AfterCall s s' (G0 P 45 p.buf)) := by
  subst eP
  refine (call_sim (k := .shared) (G := nothing) (Q := fun v v' s' => v' = (place s p).add 9 ∧ place s' v = (place s p).add 9 ∧ s.next ≤ v.buf ∧ v.buf < s'.next ∧ Quiet s' v 36) (E := fun _ => True)
    (.inr rfl) hs hr fun s1 hm hs1 h => ?_).mono (fun _ _ _ h => h) fun _ h => h.1
  simp only [reduceCtorEq, ↓reduceIte]
  rw [← hm]
  rw [← hm] at hG
  have hqt : Quiet s1 ⟨s.next, p.off⟩ 45 := fun b i hi => by
    rw [h.place_new] at hi
    obtain ⟨rest, e, -⟩ := h.top_shared (.inl rfl) hi
    rw [e, Stack.read_new]
  have hn : s1.next = s.next + 1 := h.next
  rw [← Prog.bind_ret (Simd.Uuid.hyphenated_start ⟨place s p, 45⟩)]
  refine Sim.bind (y := Simd.Uuid.hyphenated_start ⟨place s p, 45⟩) ((kern2_read (R := fun ρ a v v' => v = (⟨a, p.off + 9⟩ : Ptr) ∧ v' = ⟨ρ a, p.off + 9⟩) (F := fun p => Simd.Uuid.hyphenated_start ⟨p, 45⟩) (b := q.buf) h.place_new hG
    (fun ρ a => ren_strip ρ a _) ((Simd.Uuid.uses_hyphenated_start (by rfl)).mono fun _ _ => trivial) (by rw [h.home_old hq, ← eQ]; rfl) (Nat.ne_of_gt hq) ho hqt).mono (fun _ _ _ h => h)
    fun s' h => ⟨h.2.weaken nothing_or, trivial⟩) ?_
  rintro v v' s2 - ⟨⟨rfl, rfl⟩, hnx, h2⟩
  have hp2 : place s2 ⟨s.next, p.off + 9⟩ = (place s p).add 9 := by
    unfold place Ptr.add
    rw [h2.home _ (by dsimp only; omega), h.home_new]
  have key : Sim (retag .shared ⟨s.next, p.off + 9⟩ 36 s2) (.ok () s2.mem) (fun v _ s3 => AfterCall s1 s3 (over (place s p) 45 (.shared s.next) nothing) ∧ place s3.ret v = (place s p).add 9 ∧ s.next ≤ v.buf ∧ v.buf < s3.next ∧
      Quiet s3.ret v 36) (fun s2 => AfterCall s1 s2 (over (place s p) 45 (.shared s.next) nothing) ∧ True) := by
   refine (retag_sim (E := fun _ => False) fun b i hi => ?_).mono ?_ fun _ h => h.elim
   · rw [hp2] at hi
     have := hqt b i (by rw [h.place_new]; exact hsub hi)
     rw [Kind.apply, h2.same rfl, this]
     rfl
   · rintro r _ s3 ⟨rfl, h3⟩
     have h4 := h3.after_shared (.inl rfl)
     rw [hp2] at h4
     refine ⟨(h2.weaken nothing_or).trans (h4.weaken fun b i => ?_), ?_, by dsimp only; omega, h3.derived.hi, Quiet.ret fun b i hi => ?_⟩
     · by_cases hb : In ((place s p).add 9) 36 b i
       · exact .inr ((over_in hb).trans (over_in (hsub hb)).symm)
       · exact .inl (over_out hb)
     · exact h3.place_new.trans hp2
     · rw [h3.place_new] at hi
       obtain ⟨rest, e, -⟩ := h3.top_shared (.inl rfl) hi
       rw [e, Stack.read_new]
  refine (Sim.cast (E' := fun _ => False) key).mono (fun v v' s' h' => ⟨h'.2.1, h'.1.trans ?_, h'.2.2⟩) fun _ h => h.elim
  unfold place Ptr.add
  rw [h.home_new]

/-- The hyphenated text within 36 or 38 bytes. -/
theorem uses_inner (hi : Option Isa) (a b : Ptr) : Uses' (· = a.buf) (· = b.buf) (Simd.Uuid.hyphenated_start ⟨a, n⟩ >>= fun r => Simd.Uuid.parse_hyphenated_auto hi r b) :=
  (Simd.Uuid.uses_hyphenated_start (L := (· = a.buf)) (src := ⟨a, n⟩) (by rfl)).bind fun r hr => Simd.Uuid.uses_parse_hyphenated_auto (p := r) hr (by rfl) _

theorem ren_inner (hi : Option Isa) (ρ : Nat → Nat) (a b o o' : Nat) :
    RenE ρ (Simd.Uuid.hyphenated_start ⟨⟨a, o⟩, n⟩ >>= fun r => Simd.Uuid.parse_hyphenated_auto hi r ⟨b, o'⟩) (Simd.Uuid.hyphenated_start ⟨⟨ρ a, o⟩, n⟩ >>= fun r => Simd.Uuid.parse_hyphenated_auto hi r ⟨ρ b, o'⟩) :=
  Ren.bind (Simd.Uuid.ren_hyphenated_start a o n) fun v v' (h : v' = _) => by subst h; exact Simd.Uuid.ren_parse_hyphenated_auto ..

theorem parse_sim (si hi : Option Isa) (hs : Sound s) (hr : Readable s p n) (hm : Mutable s q 16) (hq : q.buf < s.next) (eP : place s p = P) (eQ : place s q = Q)
    (ho : NoOverlap P n Q 16) (hG : Good2 (fun p q => Simd.Uuid.parse si hi ⟨p, n⟩ q) P n Q 16 s.mem)
    (hG' : n = 45 → Good2 (fun p q => Simd.Uuid.parse_hyphenated hi ⟨p, 36⟩ q) (P.add 9) 36 Q 16 s.mem) :
    Sim (parse si hi ⟨p, n⟩ q s) ((Simd.Uuid.parse si hi ⟨P, n⟩ Q).run s.mem) (fun v v' s' => AfterCall s s' (G2 P n p.buf Q 16 q.buf) ∧ RetB s' v v')
      (fun s' => AfterCall s s' (G2 P n p.buf Q 16 q.buf)) := by
  refine copy_call retB_ret hs hr hm hq eP eQ ho fun s1 p1 hmem hs1 hr1 hm1 hq1 hp1 eP1 eQ1 => ?_
  rw [← hmem] at hG hG'
  by_cases h32 : n = 32
  · subst h32
    exact copy_tail (K := fun p q => Simd.Uuid.parse_simple_auto si p q) (.inl rfl) (one_mul _).symm hs1 hr1 hm1 hq1 eP1 eQ1 ho (Nat.le_refl _) (Good2.head hG) (fun _ _ _ => Simd.Uuid.ren_parse_simple_auto ..)
      fun _ _ => Simd.Uuid.uses_parse_simple_auto (by rfl) (by rfl) _
  have e1 : Simd.Uuid.parse si hi ⟨P, n⟩ Q = (do let r ← Simd.Uuid.hyphenated_start ⟨P, n⟩; Simd.Uuid.parse_hyphenated_auto hi r Q; return ⟨Q, 16⟩) := if_neg h32
  have e2 : (fun p q => Simd.Uuid.parse si hi ⟨p, n⟩ q) = fun p q => Simd.Uuid.hyphenated_start ⟨p, n⟩ >>= fun r => Simd.Uuid.parse_hyphenated_auto hi r q >>= fun _ => pure ⟨q, 16⟩ := by
    funext p q; exact if_neg h32
  rw [e2] at hG
  dsimp only
  rw [if_neg h32, e1]
  by_cases h45 : n = 45
  · subst h45
    have hG' := hG' rfl
    rw [hyphenated_start, if_pos rfl, BProg.assoc]
    refine Sim.bind ((strip_sim hs1 hr1 eP1 eQ1 hq1 ho (Good2.head (X := fun p _ => Simd.Uuid.hyphenated_start ⟨p, 45⟩) hG)).mono (fun _ _ _ h => h) fun _ h => h.weaken G2_src) ?_
    rintro v _ s2 hrun ⟨h, rfl, ev, hv1, hv2, hv3⟩
    have hmm : s2.mem = s1.mem := (Simd.Uuid.uses_hyphenated_start (L := fun _ => True) trivial).keeps hrun
    rw [← hmm] at hG'
    have ho9 : NoOverlap (P.add 9) 36 Q 16 := fun i j hi hj h => ho (9 + i) j (by omega) hj ⟨h.1, by have := h.2; unfold Ptr.add at this; dsimp only at this; omega⟩
    have hG2 := Good2.next (X := fun _ _ => ensure (36 == 36)) (K := fun p q _ => do Simd.Uuid.parse_hyphenated_auto hi p q; return (⟨q, 16⟩ : Slice)) hG'
      ho9 (fun _ _ _ => Ren.ensure _) rfl
    have h' : AfterCall s1 s2 (G2 P 45 p1.buf Q 16 q.buf) := h.weaken G2_src
    subst eQ1
    have hpush : ∀ s3, AfterCall s2 s3 (G2 (P.add 9) 36 v.buf (place s1 q) 16 q.buf) → AfterCall s1 s3 (G2 P 45 p1.buf (place s1 q) 16 q.buf) := fun s3 h3 => h'.push hs1 h3 fun b i => by
      by_cases hb : In (P.add 9) 36 b i
      · exact .inr (.inr (.inr (.inl ⟨_, _, over_in (hsub hb), over_in hb, hv1⟩)))
      · by_cases hc : In (place s1 q) 16 b i
        · exact .inr (.inl ((over_out hb).trans ((over_in hc).trans ((over_out fun h' => noOverlap_pt ho h' hc).trans (over_in hc)).symm)))
        · exact .inl ((over_out hb).trans (over_out hc))
    exact (copy_tail (K := fun p q => Simd.Uuid.parse_hyphenated_auto hi p q) (.inl rfl) (one_mul 16).symm (h.sound hs1) hv3.readable (G2_mutable ho h' hq1 hm1) (Nat.lt_of_lt_of_le hq1 h.next) ev
      (AfterCall.place h hq1) ho9 (Nat.le_refl _) (Good2.head hG2) (fun _ _ _ => Simd.Uuid.ren_parse_hyphenated_auto ..) fun _ _ => Simd.Uuid.uses_parse_hyphenated_auto (by rfl) (by rfl) _).mono
      (fun _ _ s3 h3 => ⟨hpush s3 h3.1, h3.2⟩) fun s3 h3 => hpush s3 h3
  · rw [hyphenated_start, if_neg h45]
    by_cases h3 : n = 36 ∨ n = 38
    · rw [if_pos h3, BProg.assoc, ← Prog.assoc]
      have := copy_tail (K := fun p q => Simd.Uuid.hyphenated_start ⟨p, n⟩ >>= fun r => Simd.Uuid.parse_hyphenated_auto hi r q) (.inl rfl) (one_mul 16).symm hs1 hr1 hm1 hq1 eP1 eQ1 ho (Nat.le_refl _)
        (Good2.head (K := fun _ q _ => pure (⟨q, 16⟩ : Slice)) (by simp only [Prog.assoc]; exact hG)) (fun _ _ _ => ren_inner ..) fun _ _ => uses_inner ..
      simp only [prog_bind, BProg.assoc] at this
      exact this
    · rw [if_neg h3]
      have : Simd.Uuid.hyphenated_start ⟨P, n⟩ = .err := by
        unfold Simd.Uuid.hyphenated_start
        split
        · rename_i e; exact absurd (.inl e) h3
        · rename_i e; exact absurd (.inr e) h3
        · rename_i e; exact absurd e h45
        · rfl
      rw [this]
      exact ⟨rfl, AfterCall.refl _ _⟩

end Uuid
end Borrow
end Simd
