import Verif.Spec.Work
import Verif.Model.Alsw
import Verif.Lemmas.LoadStore
/-
Bounding the work of a program by following its text: a budget is spent on every access, and what is left of it is known with the result.
-/
namespace Simd

variable {α β : Type}

/-- With the budget `B` the program can pay for all its accesses, whatever is loaded; on return `Q` holds of the result and the rest of the budget. -/
def Cost (Q : α → Nat → Prop) : Prog α → Nat → Prop
  | .pure a, B => Q a B
  | .err, _ => True
  | .panic, _ => True
  | .ub, _ => True
  | .load _ n k, B => n + 1 ≤ B ∧ ∀ bs : List Byte, bs.length = n → Cost Q (k bs) (B - (n + 1))
  | .store _ bs k, B => bs.length + 1 ≤ B ∧ Cost Q k (B - (bs.length + 1))
  | .chk _ k, B => Cost Q k B
  | .alloc _ k, B => ∀ b, Cost Q (k b) B

/-- `Cost` without a claim about the result. -/
abbrev Cost' (x : Prog α) (B : Nat) : Prop := Cost (fun _ _ => True) x B

namespace Cost
variable {Q : α → Nat → Prop} {Q' : β → Nat → Prop}

theorem readFrom_length (m : Mem) (b : Nat) : ∀ n o bs, m.readFrom b o n = some bs → bs.length = n
  | 0, o, bs, h => by cases h; rfl
  | n + 1, o, bs, h => by
    unfold Mem.readFrom at h
    split at h
    · rename_i xs _ h'
      cases h
      rw [List.length_cons, readFrom_length m b n _ _ h']
    · cases h

theorem work_le {x : Prog α} {B : Nat} (h : Cost Q x B) (m : Mem) : Spec.work (x.trace m) ≤ B := by
  induction x generalizing B m with
  | pure a => exact Nat.zero_le _
  | err => exact Nat.zero_le _
  | panic => exact Nat.zero_le _
  | ub => exact Nat.zero_le _
  | load p n k ih =>
    obtain ⟨h1, h2⟩ := h
    unfold Prog.trace
    match hr : m.read p n with
    | some bs =>
      have hl : bs.length = n := by
        unfold Mem.read at hr
        split at hr
        · exact readFrom_length m _ _ _ _ hr
        · cases hr
      have := ih bs (h2 bs hl) m
      simp only [Spec.work, List.map_cons, List.sum_cons, Access.work] at this ⊢
      omega
    | none =>
      simp only [Spec.work, List.map_cons, List.sum_cons, Access.work, List.map_nil, List.sum_nil]
      omega
  | store p bs k ih =>
    obtain ⟨h1, h2⟩ := h
    unfold Prog.trace
    split
    · have := ih h2 (m.write p bs)
      simp only [Spec.work, List.map_cons, List.sum_cons, Access.work] at this ⊢
      omega
    · simp only [Spec.work, List.map_cons, List.sum_cons, Access.work, List.map_nil, List.sum_nil]
      omega
  | chk p k ih =>
    unfold Prog.trace
    split
    · exact ih h m
    · exact Nat.zero_le _
  | alloc n k ih =>
    unfold Prog.trace
    exact ih m.nbuf (h m.nbuf) _

theorem frame {R : α → Nat → Prop} {x : Prog α} {B C : Nat} (h : Cost R x B) (hB : B ≤ C) (hQ : ∀ a b, R a b → Q a (b + (C - B))) : Cost Q x C := by
  induction x generalizing B C with
  | pure a =>
    have := hQ a B h
    rwa [show B + (C - B) = C by omega] at this
  | err => trivial
  | panic => trivial
  | ub => trivial
  | load p n k ih =>
    refine ⟨by have := h.1; omega, fun bs hl => ih bs (h.2 bs hl) (by omega) fun a b hR => ?_⟩
    have := hQ a b hR
    rwa [show C - (n + 1) - (B - (n + 1)) = C - B by have := h.1; omega]
  | store p bs k ih =>
    refine ⟨by have := h.1; omega, ih h.2 (by omega) fun a b hR => ?_⟩
    have := hQ a b hR
    rwa [show C - (bs.length + 1) - (B - (bs.length + 1)) = C - B by have := h.1; omega]
  | chk p k ih => exact ih h hB hQ
  | alloc n k ih => exact fun b => ih b (h b) hB hQ

theorem bind' {x : Prog α} {f : α → Prog β} {B : Nat} (h : Cost (fun a b => Cost Q' (f a) b) x B) : Cost Q' (Prog.bind x f) B := by
  induction x generalizing B with
  | pure a => exact h
  | err => trivial
  | panic => trivial
  | ub => trivial
  | load p n k ih => exact ⟨h.1, fun bs hl => ih bs (h.2 bs hl)⟩
  | store p bs k ih => exact ⟨h.1, ih h.2⟩
  | chk p k ih => exact ih h
  | alloc n k ih => exact fun b => ih b (h b)

/-- A call followed by the rest. -/
theorem call {R : α → Nat → Prop} {x : Prog α} {f : α → Prog β} {B C : Nat} (h : Cost R x B) (hB : B ≤ C)
    (hf : ∀ a b, R a b → Cost Q' (f a) (b + (C - B))) : Cost Q' (x >>= f) C := bind' (frame h hB hf)
theorem ret {a : α} {B : Nat} (h : Q a B) : Cost Q (pure a : Prog α) B := h
theorem err {B : Nat} : Cost Q (.err : Prog α) B := trivial
theorem panic {B : Nat} : Cost Q (.panic : Prog α) B := trivial
theorem ub {B : Nat} : Cost Q (.ub : Prog α) B := trivial
theorem padd (p : Ptr) (n : Nat) : Cost' (Simd.padd p n) 0 := trivial
theorem psub (p : Ptr) (n : Nat) : Cost (fun q _ => q.off + n = p.off) (Simd.psub p n) 0 := by
  unfold Simd.psub; split
  · rename_i h; exact Nat.sub_add_cancel h
  · trivial
theorem offset_from (p q : Ptr) : Cost (fun n _ => n + q.off = p.off) (Simd.offset_from p q) 0 := by
  unfold Simd.offset_from; split
  · split
    · rename_i h; exact Nat.sub_add_cancel h
    · trivial
  · trivial
theorem ensure (b : Bool) : Cost (fun _ _ => b = true) (Simd.ensure b) 0 := by
  unfold Simd.ensure; split
  · assumption
  · trivial
theorem assert (b : Bool) : Cost (fun _ _ => b = true) (Simd.assert b) 0 := by
  unfold Simd.assert; split
  · assumption
  · trivial
theorem liftO (o : Option α) : Cost (fun a _ => o = some a) (Simd.liftO o) 0 := by
  cases o
  · trivial
  · rfl
theorem liftR (o : Vs.Res α) : Cost' (Simd.liftR o) 0 := by
  rcases o with _ | _ | _ <;> trivial
theorem tread (t : List Byte) (i : Nat) : Cost' (Simd.tread t i) 0 := by
  unfold Simd.tread; split <;> trivial
theorem rd (p : Ptr) (i : Nat) : Cost' (Simd.rd p i) 2 := ⟨Nat.le_refl _, fun _ _ => trivial⟩
theorem wrt (p : Ptr) (i : Nat) (x : Byte) : Cost' (Simd.wrt p i x) 2 := ⟨Nat.le_refl _, trivial⟩
theorem loadBytes (p : Ptr) (n : Nat) : Cost (fun bs _ => bs.length = n) (Simd.loadBytes p n) (n + 1) := ⟨Nat.le_refl _, fun _ h => h⟩
theorem storeBytes (p : Ptr) (bs : List Byte) : Cost' (Simd.storeBytes p bs) (bs.length + 1) := ⟨Nat.le_refl _, trivial⟩

open Vs in
theorem v128_load (s : Isa) (p : Ptr) : Cost' (Vs.v128_load s p) 17 := by
  cases s <;> exact ⟨Nat.le_refl _, fun _ _ => trivial⟩
theorem v128_store (s : Isa) (p : Ptr) (a : V128) : Cost' (Vs.v128_store s p a) 17 := by
  have : a.toList.length = 16 := by simp
  cases s <;> exact ⟨by omega, trivial⟩
theorem v256_load (s : Isa) (p : Ptr) : Cost' (Vs.v256_load s p) 34 := by
  cases s <;> first
    | exact ⟨by omega, fun _ _ => trivial⟩
    | exact ⟨by omega, fun _ _ => ⟨by omega, fun _ _ => trivial⟩⟩
theorem v256_store (s : Isa) (p : Ptr) (a : V256) : Cost' (Vs.v256_store s p a) 34 := by
  have h : a.toList.length = 32 := by simp
  have h1 : a.lo.toList.length = 16 := by simp
  have h2 : a.hi.toList.length = 16 := by simp
  cases s <;> first
    | exact ⟨by omega, trivial⟩
    | exact ⟨by omega, by omega, trivial⟩

theorem forFrom {f : Nat → Prog Unit} {c : Nat} (h : ∀ i, Cost' (f i) c) : ∀ n i, Cost' (Simd.forFrom f i n) (c * n)
  | 0, i => trivial
  | n + 1, i => by
    unfold Simd.forFrom
    refine call (h i) (by rw [Nat.mul_succ]; omega) fun _ b _ => frame (forFrom h n (i + 1)) (by rw [Nat.mul_succ]; omega) fun _ _ _ => trivial
theorem foldFrom {σ : Type} {f : Nat → σ → Prog σ} {c : Nat} (h : ∀ i s, Cost' (f i s) c) : ∀ n i s, Cost' (Simd.foldFrom f i n s) (c * n)
  | 0, i, s => trivial
  | n + 1, i, s => by
    unfold Simd.foldFrom
    refine call (h i s) (by rw [Nat.mul_succ]; omega) fun _ b _ => frame (foldFrom h n (i + 1) _) (by rw [Nat.mul_succ]; omega) fun _ _ _ => trivial

end Cost

/-- Follows the text of a program; the lemmas in the list handle the functions it calls. -/
syntax "cost" "[" term,* "]" : tactic
macro_rules
  | `(tactic| cost [$ts,*]) => do
    let pre ← #[``Cost.padd, ``Cost.psub, ``Cost.liftO, ``Cost.liftR, ``Cost.ensure, ``Cost.assert, ``Cost.offset_from, ``Cost.tread, ``Cost.rd, ``Cost.wrt,
      ``Cost.v128_load, ``Cost.v128_store, ``Cost.v256_load, ``Cost.v256_store, ``Cost.loadBytes, ``Cost.storeBytes].mapM fun n =>
        `(term| $(Lean.mkIdent n) ..)
    let ts : Array (Lean.TSyntax `term) := pre ++ ts.getElems
    let calls ← ts.mapM fun t => `(Lean.Parser.Tactic.tacticSeq| (with_reducible refine Cost.call $t ?_ ?_))
    let tails ← ts.mapM fun t => `(Lean.Parser.Tactic.tacticSeq| (with_reducible refine Cost.frame $t ?_ ?_))
    let ends ← #[``Cost.err, ``Cost.ub, ``Cost.panic].mapM fun n => `(Lean.Parser.Tactic.tacticSeq| (with_reducible exact $(Lean.mkIdent n)))
    let post : Array (Lean.TSyntax ``Lean.Parser.Tactic.tacticSeq) := #[
      ← `(Lean.Parser.Tactic.tacticSeq| (with_reducible apply Cost.ret)),
      ← `(Lean.Parser.Tactic.tacticSeq| (with_reducible exact True.intro)),
      ← `(Lean.Parser.Tactic.tacticSeq| (with_reducible rintro (⟨_, _, _⟩ : _ × _ × _))),
      ← `(Lean.Parser.Tactic.tacticSeq| (with_reducible rintro (⟨_, _⟩ : _ × _))),
      ← `(Lean.Parser.Tactic.tacticSeq| intro _),
      ← `(Lean.Parser.Tactic.tacticSeq| (((try simp only [Ptr.add, Vec.toList_length, List.length_cons, List.length_nil, decide_eq_true_eq] at *); omega))),
      ← `(Lean.Parser.Tactic.tacticSeq| dsimp only), ← `(Lean.Parser.Tactic.tacticSeq| split)]
    let all := ends ++ calls ++ tails ++ post
    `(tactic| repeat' first $[| $all]*)

end Simd
