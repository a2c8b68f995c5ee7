import Verif.Lemmas.TreeFns2
import Verif.Lemmas.BorrowUuid
/-
`parse` of uuid-simd with borrow trees.
-/
namespace Simd.Tree
open Spec
open Borrow (Good1 Good2 Good1.head Good1.next Good2.head Good2.next noOverlap_pt)
open Borrow.Uuid (hsub ren_inner uses_inner)

variable {s : State} {p q P Q : Ptr} {n d : Nat}

theorem BProg.assoc {α β γ : Type} (x : BProg α) (f : α → BProg β) (g : β → BProg γ) : ((x >>= f) >>= g) = x >>= fun a => f a >>= g := by
  funext s
  show BProg.bind (BProg.bind _ _) _ s = BProg.bind _ _ s
  unfold BProg.bind
  cases x s <;> rfl

theorem Sim.cast {α β γ : Type} {r : Result α} {v : β} {w : γ} {m : Mem} {R : α → β → State → Prop} {E E' : State → Prop} (h : Sim r (.ok v m) R E) : Sim r (.ok w m) (fun a b s => b = w ∧ R a v s) E' := by
  cases r <;> first | exact ⟨h.1, rfl, h.2⟩ | exact h

namespace Uuid

theorem strip_sim (hs : Sound s) (hr : Readable s p 45) (eP : place s p = P) (eQ : place s q = Q) (hq : q.buf < s.next) (ho : NoOverlap P 45 Q 16)
    (hG : Good2 (fun p _ => Simd.Uuid.hyphenated_start ⟨p, 45⟩) P 45 Q 16 s.mem) :
    Sim (call (arg .shared p 45 >>= fun p => prog (Simd.Uuid.hyphenated_start ⟨p, 45⟩) >>= fun r => retag .shared r 36) s) ((Simd.Uuid.hyphenated_start ⟨P, 45⟩).run s.mem)
      (fun v v' s' => AfterCall s s' (G0 P 45 p.buf) ∧ v' = P.add 9 ∧ place s' v = P.add 9 ∧ Made s s' p.buf v.buf ∧ Readable s' v 36) (fun s' => AfterCall s s' (G0 P 45 p.buf)) := by
  subst eP
  refine (call_sim (k := .shared) (G := nothing) (Q := fun v v' s' => v' = (place s p).add 9 ∧ place s' v = (place s p).add 9 ∧ Made s s' p.buf v.buf ∧ Readable s' v 36) (E := fun _ => True)
    hs nothing_tag hr fun s1 hm hs1 h => ?_).mono (fun _ _ _ h => h) fun _ h => h.1
  rw [← hm]
  rw [← hm] at hG
  obtain ⟨hn, hd, hg, -⟩ := h.enter
  have hqt : Readable s1 ⟨s.next, p.off⟩ 45 := h.readable (sound_enter hs) hr.enter
  rw [← Prog.bind_ret (Simd.Uuid.hyphenated_start ⟨place s p, 45⟩)]
  refine Sim.bind (y := Simd.Uuid.hyphenated_start ⟨place s p, 45⟩) ((kern2_read (R := fun ρ a v v' => v = (⟨a, p.off + 9⟩ : Ptr) ∧ v' = ⟨ρ a, p.off + 9⟩) (F := fun p => Simd.Uuid.hyphenated_start ⟨p, 45⟩) (b := q.buf) hs1 h.place_new hG
    (fun ρ a => Borrow.Uuid.ren_strip ρ a _) ((Simd.Uuid.uses_hyphenated_start (by rfl)).mono fun _ _ => trivial) (by rw [h.home_old hq, ← eQ]; rfl) (Nat.ne_of_gt hq) ho hqt).mono (fun _ _ _ h => h)
    fun s' h => ⟨h.2, fun _ _ => trivial⟩) ?_
  rintro v v' s2 - ⟨⟨rfl, rfl⟩, hnx, h2⟩
  have hn1 : s.next < s1.next := by omega
  have hp2 : place s2 ⟨s.next, p.off + 9⟩ = (place s p).add 9 := by
    unfold place Ptr.add
    rw [h2.home _ hn1, h.home_new]
  have hr2 : Readable s2 ⟨s.next, p.off⟩ 45 := h2.readable (fun b i hi => .inr (.inl (by rw [h.place_new] at hi; exact over_in hi))) hqt
  have hr9 : Readable s2 ⟨s.next, p.off + 9⟩ 36 := ⟨hr2.1, fun b i hi => hr2.2 b i (by
    rw [hp2] at hi
    rw [AfterCall.place h2 hn1, h.place_new]
    exact hsub hi)⟩
  have key : Sim (retag .shared ⟨s.next, p.off + 9⟩ 36 s2) (.ok () s2.mem) (fun v _ s3 => AfterCall s1 s3 (over (place s p) 45 (.shared s.next) nothing) ∧ ∀ s4, Back s3 s4 → place s4 v = (place s p).add 9 ∧ Made s s4 p.buf v.buf ∧
      Readable s4 v 36) (fun s2 => AfterCall s1 s2 (over (place s p) 45 (.shared s.next) nothing) ∧ True) := by
   refine (retag_sim (prot := false) (k := .shared) (E := fun _ => False) hr9).mono ?_ fun _ h => h.elim
   rintro r _ s3 ⟨rfl, h3⟩
   have h4 : AfterCall s2 s3 (G0 ((place s p).add 9) 36 s.next) := by
     have := h3.after h2.sound hr9.1 (.inl rfl)
     rwa [hp2] at this
   have h5 := h2.push h4 (tag0 hn1) (none_or fun b i => by
     by_cases hb : In ((place s p).add 9) 36 b i
     · exact .inr ((over_in hb).trans (over_in (hsub hb)).symm)
     · exact .inl (over_out hb))
   have hmd : Made s s3 p.buf s2.next := (hd.toMade.after h2).trans (Nat.le_of_lt (by omega)) h3.derived.toMade
   refine ⟨h5, fun s4 hb => ⟨?_, hb.made hmd, hb.readable (fun t ht => ?_) (h3.readable h2.sound hr9)⟩⟩
   · rw [hb.place]; exact h3.place_new.trans hp2
   · rw [h5.guard, hg, List.mem_singleton] at ht
     subst ht
     show s3.up s2.next s.next = true
     rw [h3.derived.line _ (by omega)]
     show s2.up s.next s.next = true
     exact h2.sound.self _ (by omega)
  refine (Sim.cast (E' := fun _ => False) key).mono (fun v v' s' h' => ⟨h'.2.1, fun s4 hb => ⟨h'.1.trans ?_, h'.2.2 s4 hb⟩⟩) fun _ h => h.elim
  unfold place Ptr.add
  rw [h.home_new]

theorem parse_sim (si hi : Option Isa) (hs : Sound s) (hr : Readable s p n) (hm : Mutable s q 16) (hq : q.buf < s.next) (eP : place s p = P) (eQ : place s q = Q)
    (ho : NoOverlap P n Q 16) (hG : Good2 (fun p q => Simd.Uuid.parse si hi ⟨p, n⟩ q) P n Q 16 s.mem)
    (hG' : n = 45 → Good2 (fun p q => Simd.Uuid.parse_hyphenated hi ⟨p, 36⟩ q) (P.add 9) 36 Q 16 s.mem) :
    Sim (parse si hi ⟨p, n⟩ q s) ((Simd.Uuid.parse si hi ⟨P, n⟩ Q).run s.mem) (fun v v' s' => AfterCall s s' (G2 P n p.buf Q 16 q.buf) ∧ RetB s q.buf s' v v')
      (fun s' => AfterCall s s' (G2 P n p.buf Q 16 q.buf)) := by
  refine copy_call (Ret.res 1) hs hr hm hq eP eQ ho fun s1 p1 hmem hs1 hr1 hm1 hq1 hp1 eP1 eQ1 => ?_
  rw [← hmem] at hG hG'
  by_cases h32 : n = 32
  · subst h32
    exact copy_tail (K := fun p q => Simd.Uuid.parse_simple_auto si p q) (.inl rfl) (one_mul _).symm hs1 hr1 hm1 hq1 eP1 eQ1 ho (Nat.le_refl _) (Good2.head hG) (fun _ _ _ => Simd.Uuid.ren_parse_simple_auto ..)
      fun _ _ => Simd.Uuid.uses_parse_simple_auto (by rfl) (by rfl) _
  have e1 : Simd.Uuid.parse si hi ⟨P, n⟩ Q = (do let r ← Simd.Uuid.hyphenated_start ⟨P, n⟩; Simd.Uuid.parse_hyphenated_auto hi r Q; return ⟨Q, 16⟩) := if_neg h32
  have e2 : (fun p q => Simd.Uuid.parse si hi ⟨p, n⟩ q) = fun p q => Simd.Uuid.hyphenated_start ⟨p, n⟩ >>= fun r => Simd.Uuid.parse_hyphenated_auto hi r q >>= fun _ => pure ⟨q, 16⟩ := by
    funext p q; exact if_neg h32
  rw [e2] at hG
  dsimp only
  rw [if_neg h32, e1]
  by_cases h45 : n = 45
  · subst h45
    have hG' := hG' rfl
    rw [hyphenated_start, if_pos rfl, BProg.assoc]
    refine Sim.bind ((strip_sim hs1 hr1 eP1 eQ1 hq1 ho (Good2.head (X := fun p _ => Simd.Uuid.hyphenated_start ⟨p, 45⟩) hG)).mono (fun _ _ _ h => h) fun _ h => h.weaken G2_src) ?_
    rintro v _ s2 hrun ⟨h, rfl, ev, hv1, hv3⟩
    have hmm : s2.mem = s1.mem := (Simd.Uuid.uses_hyphenated_start (L := fun _ => True) trivial).keeps hrun
    rw [← hmm] at hG'
    have ho9 : NoOverlap (P.add 9) 36 Q 16 := fun i j hi hj h => ho (9 + i) j (by omega) hj ⟨h.1, by have := h.2; unfold Ptr.add at this; dsimp only at this; omega⟩
    have hG2 := Good2.next (X := fun _ _ => ensure (36 == 36)) (K := fun p q _ => do Simd.Uuid.parse_hyphenated_auto hi p q; return (⟨q, 16⟩ : Slice)) hG'
      ho9 (fun _ _ _ => Ren.ensure _) rfl
    have h' : AfterCall s1 s2 (G2 P 45 p1.buf Q 16 q.buf) := h.weaken G2_src
    subst eQ1
    have hpush : ∀ s3, AfterCall s2 s3 (G2 (P.add 9) 36 v.buf (place s1 q) 16 q.buf) → AfterCall s1 s3 (G2 P 45 p1.buf (place s1 q) 16 q.buf) := fun s3 h3 => h'.push h3 (tag2 hp1 hq1) fun b i => by
      by_cases hb : In (P.add 9) 36 b i
      · exact .inr (.inr (.inr (.inl ⟨_, _, .inr (over_in (hsub hb)), over_in hb, hv1⟩)))
      · by_cases hc : In (place s1 q) 16 b i
        · exact .inr (.inl ((over_out hb).trans ((over_in hc).trans ((over_out fun h' => noOverlap_pt ho h' hc).trans (over_in hc)).symm)))
        · exact .inl ((over_out hb).trans (over_out hc))
    exact (copy_tail (K := fun p q => Simd.Uuid.parse_hyphenated_auto hi p q) (.inl rfl) (one_mul 16).symm (h.sound) hv3 (G2_mutable ho h' hq1 hm1) (Nat.lt_of_lt_of_le hq1 h.next) ev
      (AfterCall.place h hq1) ho9 (Nat.le_refl _) (Good2.head hG2) (fun _ _ _ => Simd.Uuid.ren_parse_hyphenated_auto ..) fun _ _ => Simd.Uuid.uses_parse_hyphenated_auto (by rfl) (by rfl) _).mono
      (fun _ _ s3 h3 => ⟨hpush s3 h3.1, h3.2.after h⟩) fun s3 h3 => hpush s3 h3
  · rw [hyphenated_start, if_neg h45]
    by_cases h3 : n = 36 ∨ n = 38
    · rw [if_pos h3, BProg.assoc, ← Prog.assoc]
      have := copy_tail (K := fun p q => Simd.Uuid.hyphenated_start ⟨p, n⟩ >>= fun r => Simd.Uuid.parse_hyphenated_auto hi r q) (.inl rfl) (one_mul 16).symm hs1 hr1 hm1 hq1 eP1 eQ1 ho (Nat.le_refl _)
        (Good2.head (K := fun _ q _ => pure (⟨q, 16⟩ : Slice)) (by simp only [Prog.assoc]; exact hG)) (fun _ _ _ => ren_inner ..) fun _ _ => uses_inner ..
      simp only [prog_bind, BProg.assoc] at this
      exact this
    · rw [if_neg h3]
      have : Simd.Uuid.hyphenated_start ⟨P, n⟩ = .err := by
        unfold Simd.Uuid.hyphenated_start
        split
        · rename_i e; exact absurd (.inl e) h3
        · rename_i e; exact absurd (.inr e) h3
        · rename_i e; exact absurd e h45
        · rfl
      rw [this]
      exact ⟨rfl, AfterCall.refl hs1 _⟩

end Uuid

end Simd.Tree
