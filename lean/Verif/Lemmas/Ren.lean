import Verif.Lemmas.Footprint
import Verif.Lemmas.Ops
/-
Two runs of the same code on memories in which the allocations are numbered differently: `Ren` relates two programs of which the second makes the accesses of the first
in the allocations that a map of allocation numbers gives. The map need not be injective, so the second run may have in one allocation what the first has in two.
-/
namespace Simd

variable {α β : Type} {ρ : Nat → Nat}

/-- The second program makes the same accesses as the first in the renamed allocations and goes on in the same way for the same bytes loaded, as long as the first
has no undefined behaviour; the second may have undefined behaviour of its own only if different allocations become one; the results are related by `R`. -/
def Ren (ρ : Nat → Nat) (R : α → β → Prop) : Prog α → Prog β → Prop
  | .pure a, .pure b => R a b
  | .load p n k, .load p' n' k' => p' = ⟨ρ p.buf, p.off⟩ ∧ n' = n ∧ ∀ bs, Ren ρ R (k bs) (k' bs)
  | .store p bs k, .store p' bs' k' => p' = ⟨ρ p.buf, p.off⟩ ∧ bs' = bs ∧ Ren ρ R k k'
  | .chk p k, .chk p' k' => p' = ⟨ρ p.buf, p.off⟩ ∧ Ren ρ R k k'
  | .err, .err => True
  | .panic, .panic => True
  | .alloc n k, .alloc n' k' => n' = n ∧ ∀ b, Ren ρ R (k b) (k' (ρ b))
  | .ub, _ => True
  | _, .ub => ¬ Function.Injective ρ
  | _, _ => False

/-- Pointers, pairs of pointers and slices in renamed allocations. -/
abbrev RelP (ρ : Nat → Nat) (r r' : Ptr) : Prop := r' = ⟨ρ r.buf, r.off⟩
abbrev RelPN (ρ : Nat → Nat) {σ : Type} (r r' : Ptr × σ) : Prop := r' = (⟨ρ r.1.buf, r.1.off⟩, r.2)
abbrev RelPP (ρ : Nat → Nat) (r r' : Ptr × Ptr) : Prop := r' = (⟨ρ r.1.buf, r.1.off⟩, ⟨ρ r.2.buf, r.2.off⟩)
abbrev RelPPN (ρ : Nat → Nat) {σ : Type} (r r' : Ptr × Ptr × σ) : Prop := r' = (⟨ρ r.1.buf, r.1.off⟩, ⟨ρ r.2.1.buf, r.2.1.off⟩, r.2.2)
abbrev RelS (ρ : Nat → Nat) (r r' : Slice) : Prop := r' = ⟨⟨ρ r.ptr.buf, r.ptr.off⟩, r.len⟩
abbrev RelOP (ρ : Nat → Nat) (r r' : Option Ptr) : Prop := r' = r.map fun p => ⟨ρ p.buf, p.off⟩

/-- `Ren` for results that contain no pointers. -/
abbrev RenE (ρ : Nat → Nat) (x y : Prog α) : Prop := Ren ρ Eq x y


namespace Ren
variable {R : α → α → Prop} {S : β → β → Prop}

theorem ub_l {y : Prog α} : Ren ρ R .ub y := by cases y <;> trivial

theorem ub_r {x : Prog α} (h : ¬ Function.Injective ρ) : Ren ρ R x .ub := by cases x <;> first | trivial | exact h

theorem bind' {x y : Prog α} {f g : α → Prog β} (h : Ren ρ R x y) (hf : ∀ a b, R a b → Ren ρ S (f a) (g b)) :
    Ren ρ S (Prog.bind x f) (Prog.bind y g) := by
  induction x generalizing y with
  | pure a => cases y <;> first | exact hf _ _ h | exact ub_r h | exact h.elim
  | err => cases y <;> first | trivial | exact ub_r h | exact h.elim
  | panic => cases y <;> first | trivial | exact ub_r h | exact h.elim
  | ub => exact ub_l
  | load p n k ih => cases y <;> first | exact ⟨h.1, h.2.1, fun bs => ih bs (h.2.2 bs)⟩ | exact ub_r h | exact h.elim
  | store p bs k ih => cases y <;> first | exact ⟨h.1, h.2.1, ih h.2.2⟩ | exact ub_r h | exact h.elim
  | chk p k ih => cases y <;> first | exact ⟨h.1, ih h.2⟩ | exact ub_r h | exact h.elim
  | alloc n k ih => cases y <;> first | exact ⟨h.1, fun b => ih b (h.2 b)⟩ | exact ub_r h | exact h.elim

theorem bind {x y : Prog α} {f g : α → Prog β} (h : Ren ρ R x y) (hf : ∀ a b, R a b → Ren ρ S (f a) (g b)) : Ren ρ S (x >>= f) (y >>= g) := bind' h hf
theorem seq {x y : Prog α} {f g : α → Prog β} (h : RenE ρ x y) (hf : ∀ a, Ren ρ S (f a) (g a)) : Ren ρ S (x >>= f) (y >>= g) :=
  bind h fun a b e => e ▸ hf a
theorem ret {a b : α} (h : R a b) : Ren ρ R (pure a : Prog α) (pure b) := h
theorem ret_eq {a : α} : RenE ρ (pure a : Prog α) (pure a) := rfl
theorem err : Ren ρ R (.err : Prog α) .err := trivial
theorem panic : Ren ρ R (.panic : Prog α) .panic := trivial
theorem mono {x y : Prog α} {R' : α → α → Prop} (h : Ren ρ R x y) (hR : ∀ a b, R a b → R' a b) : Ren ρ R' x y := by
  induction x generalizing y with
  | pure a => cases y <;> first | exact hR _ _ h | exact ub_r h | exact h.elim
  | err => cases y <;> first | trivial | exact ub_r h | exact h.elim
  | panic => cases y <;> first | trivial | exact ub_r h | exact h.elim
  | ub => exact ub_l
  | load p n k ih => cases y <;> first | exact ⟨h.1, h.2.1, fun bs => ih bs (h.2.2 bs)⟩ | exact ub_r h | exact h.elim
  | store p bs k ih => cases y <;> first | exact ⟨h.1, h.2.1, ih h.2.2⟩ | exact ub_r h | exact h.elim
  | chk p k ih => cases y <;> first | exact ⟨h.1, ih h.2⟩ | exact ub_r h | exact h.elim
  | alloc n k ih => cases y <;> first | exact ⟨h.1, fun b => ih b (h.2 b)⟩ | exact ub_r h | exact h.elim

theorem rd (b o i) : RenE ρ (rd ⟨b, o⟩ i) (rd ⟨ρ b, o⟩ i) := ⟨rfl, rfl, fun _ => rfl⟩
theorem loadBytes (b o n) : RenE ρ (loadBytes ⟨b, o⟩ n) (loadBytes ⟨ρ b, o⟩ n) := ⟨rfl, rfl, fun _ => rfl⟩
theorem tread (t : List Byte) (i) : RenE ρ (tread t i) (tread t i) := by
  unfold Simd.tread; split
  · exact ret_eq
  · exact ub_l
theorem padd (b o n) : RenE ρ (padd ⟨b, o⟩ n) (padd ⟨ρ b, o⟩ n) := ⟨rfl, rfl⟩
theorem psub (b o n) : Ren ρ (RelP ρ) (psub ⟨b, o⟩ n) (psub ⟨ρ b, o⟩ n) := by
  unfold Simd.psub; split
  · exact ret rfl
  · exact ub_l
theorem offset_from (b o b' o') : RenE ρ (offset_from ⟨b, o⟩ ⟨b', o'⟩) (offset_from ⟨ρ b, o⟩ ⟨ρ b', o'⟩) := by
  unfold Simd.offset_from
  dsimp only
  by_cases h : b = b'
  · rw [if_pos h, if_pos (congrArg ρ h)]
    split
    · exact ret_eq
    · exact panic
  · rw [if_neg h]; exact ub_l
theorem liftO (o : Option α) : RenE ρ (liftO o) (liftO o) := by
  cases o
  · trivial
  · exact ret_eq
theorem liftR (o : Vs.Res α) : RenE ρ (liftR o) (liftR o) := by
  cases o with
  | none => trivial
  | some r => cases r <;> first | trivial | exact ret_eq
theorem ensure (b) : RenE ρ (ensure b) (ensure b) := by cases b <;> first | trivial | exact ret_eq
theorem assert (b) : RenE ρ (assert b) (assert b) := by cases b <;> first | trivial | exact ret_eq
theorem wrt (b o i x) : RenE ρ (wrt ⟨b, o⟩ i x) (wrt ⟨ρ b, o⟩ i x) := ⟨rfl, rfl, rfl⟩
theorem storeBytes (b o bs) : RenE ρ (storeBytes ⟨b, o⟩ bs) (storeBytes ⟨ρ b, o⟩ bs) := ⟨rfl, rfl, rfl⟩

theorem forFrom {f g : Nat → Prog Unit} (h : ∀ i, RenE ρ (f i) (g i)) : ∀ n i, RenE ρ (forFrom f i n) (forFrom g i n)
  | 0, _ => ret_eq
  | n + 1, i => seq (h i) fun _ => forFrom h n (i + 1)
theorem foldFrom {σ : Type} {f g : Nat → σ → Prog σ} (h : ∀ i s, RenE ρ (f i s) (g i s)) : ∀ n i s, RenE ρ (foldFrom f i n s) (foldFrom g i n s)
  | 0, _, _ => ret_eq
  | n + 1, i, s => seq (h i s) fun s => foldFrom h n (i + 1) s

theorem v128_load (s b o) : RenE ρ (Vs.v128_load s ⟨b, o⟩) (Vs.v128_load s ⟨ρ b, o⟩) := by
  unfold Vs.v128_load
  repeat' split
  all_goals first | exact seq (loadBytes _ _ _) fun _ => ret_eq | trivial
theorem v128_store (s b o x) : RenE ρ (Vs.v128_store s ⟨b, o⟩ x) (Vs.v128_store s ⟨ρ b, o⟩ x) := by
  unfold Vs.v128_store
  repeat' split
  all_goals first | exact storeBytes _ _ _ | trivial
theorem v256_load (s b o) : RenE ρ (Vs.v256_load s ⟨b, o⟩) (Vs.v256_load s ⟨ρ b, o⟩) := by
  unfold Vs.v256_load
  repeat' split
  · exact seq (loadBytes _ _ _) fun _ => ret_eq
  · exact seq (loadBytes _ _ _) fun _ => ret_eq
  · exact seq (v128_load _ _ _) fun _ => seq (padd _ _ _) fun _ => seq (v128_load _ _ _) fun _ => ret_eq
theorem v256_store (s b o x) : RenE ρ (Vs.v256_store s ⟨b, o⟩ x) (Vs.v256_store s ⟨ρ b, o⟩ x) := by
  unfold Vs.v256_store
  repeat' split
  · exact storeBytes _ _ _
  · exact storeBytes _ _ _
  · exact seq (v128_store _ _ _ _) fun _ => seq (padd _ _ _) fun _ => v128_store _ _ _ _

theorem attempt {x y : Prog α} (h : RenE ρ x y) : RenE ρ x.attempt y.attempt := by
  induction x generalizing y with
  | pure a => cases y <;> first | exact congrArg some h | exact ub_r h | exact h.elim
  | err => cases y <;> first | trivial | exact ret_eq | exact ub_r h | exact h.elim
  | panic => cases y <;> first | trivial | exact ub_r h | exact h.elim
  | ub => exact ub_l
  | load p n k ih => cases y <;> first | exact ⟨h.1, h.2.1, fun bs => ih bs (h.2.2 bs)⟩ | exact ub_r h | exact h.elim
  | store p bs k ih => cases y <;> first | exact ⟨h.1, h.2.1, ih h.2.2⟩ | exact ub_r h | exact h.elim
  | chk p k ih => cases y <;> first | exact ⟨h.1, ih h.2⟩ | exact ub_r h | exact h.elim
  | alloc n k ih => cases y <;> first | exact ⟨h.1, fun b => ih b (h.2 b)⟩ | exact ub_r h | exact h.elim

end Ren

/-- The same access in the renamed allocation. -/
def Access.ren (ρ : Nat → Nat) : Access → Access
  | .load p n => .load ⟨ρ p.buf, p.off⟩ n
  | .store p n => .store ⟨ρ p.buf, p.off⟩ n

theorem readFrom_ren {μ M : Mem} {b b' : Nat} : ∀ (n o : Nat), (∀ i, o ≤ i → i < o + n → M.cell b' i = μ.cell b i) → M.readFrom b' o n = μ.readFrom b o n
  | 0, _, _ => rfl
  | n + 1, o, h => by
    rw [Mem.readFrom, Mem.readFrom, h o (by omega) (by omega), readFrom_ren n (o + 1) fun i h1 h2 => h i (by omega) (by omega)]

/-- A program allocates nothing. -/
abbrev NoAlloc (x : Prog α) : Prop := Uses' (fun _ => True) (fun _ => True) x

unseal Uses in
/-- The accesses of the second of two related programs, if those of the first are to bytes in `A`, no two of which coincide after renaming. -/
theorem Ren.trace {R : α → α → Prop} {x y : Prog α} (h : Ren ρ R x y) {A : Nat → Nat → Prop} (hA : ∀ b b' i, A b i → A b' i → ρ b = ρ b' → b = b')
    {μ M : Mem} (hs : ∀ b, M.size (ρ b) = μ.size b) (hc : ∀ b i, A b i → M.cell (ρ b) i = μ.cell b i) (ht : Inside A A (x.trace μ))
    (hn : NoAlloc x) (hx : x.run μ ≠ .ub) (hy : y.run M ≠ .ub) : y.trace M = (x.trace μ).map (Access.ren ρ) := by
  induction x generalizing y μ M with
  | pure a => cases y <;> first | rfl | exact absurd rfl hy | exact h.elim
  | err => cases y <;> first | rfl | exact absurd rfl hy | exact h.elim
  | panic => cases y <;> first | rfl | exact absurd rfl hy | exact h.elim
  | ub => exact absurd rfl hx
  | load p n k ih =>
    cases y with
    | load p' n' k' =>
      obtain ⟨rfl, rfl, h⟩ := h
      have hr : M.read ⟨ρ p.buf, p.off⟩ n' = μ.read p n' := by
        unfold Mem.read
        dsimp only
        rw [hs, readFrom_ren n' p.off fun i h1 h2 => hc _ _ (ht (.load p n') (by simp [Prog.trace]) _ _ ⟨rfl, h1, h2⟩)]
      simp only [Prog.trace, Prog.run, hr] at hx hy ht ⊢
      cases hr' : μ.read p n' with
      | none => rw [hr'] at hx; exact absurd rfl hx
      | some bs =>
        rw [hr'] at hx hy ht
        simp only [List.map_cons, Access.ren]
        rw [ih bs (h bs) hs hc ht.tail (And.right hn bs) hx hy]
    | ub => exact absurd rfl hy
    | _ => exact h.elim
  | store p bs k ih =>
    cases y with
    | store p' bs' k' =>
      obtain ⟨rfl, rfl, h⟩ := h
      simp only [Prog.trace, Prog.run, hs] at hx hy ht ⊢
      split at hx
      · rename_i hb
        rw [if_pos hb] at hy ht ⊢
        rw [if_pos hb]
        simp only [List.map_cons, Access.ren]
        have hp : ∀ i, p.off ≤ i → i < p.off + bs'.length → A p.buf i := fun i h1 h2 => ht (.store p bs'.length) (.head _) _ _ ⟨rfl, h1, h2⟩
        rw [ih h (μ := μ.write p bs') (M := M.write ⟨ρ p.buf, p.off⟩ bs') hs (fun b i ha => ?_) ht.tail (And.right hn) hx hy]
        simp only [Mem.write]
        by_cases hi : p.off ≤ i ∧ i < p.off + bs'.length
        · by_cases hb : b = p.buf
          · simp [hb, hi]
          · have : ρ b ≠ ρ p.buf := fun e => hb (hA _ _ _ ha (hp i hi.1 hi.2) e)
            simp [hb, this, hc b i ha]
        · rw [if_neg (by omega), if_neg (by omega), hc b i ha]
      · exact absurd rfl hx
    | ub => exact absurd rfl hy
    | _ => exact h.elim
  | chk p k ih =>
    cases y with
    | chk p' k' =>
      obtain ⟨rfl, h⟩ := h
      simp only [Prog.trace, Prog.run, hs] at hx hy ht ⊢
      split at hx
      · rename_i hb
        rw [if_pos hb] at hy ht ⊢
        rw [if_pos hb]
        exact ih h hs hc ht hn hx hy
      · exact absurd rfl hx
    | ub => exact absurd rfl hy
    | _ => exact h.elim
  | alloc n k ih => exact False.elim hn

attribute [irreducible] Ren

/-- Follows the text of two programs at once; the lemmas in the first list handle the functions they call, those in the second list the
calls that return pointers. -/
syntax "ren" "[" term,* "]" "[" term,* "]" : tactic
macro_rules
  | `(tactic| ren [$ts,*] [$bs,*]) => do
    let alts ← ts.getElems.mapM fun t => `(Lean.Parser.Tactic.tacticSeq| (with_reducible apply $t))
    let balts ← bs.getElems.mapM fun t => `(Lean.Parser.Tactic.tacticSeq|
      ((with_reducible apply Ren.bind); (with_reducible apply $t); first
        | (refine fun (r : Ptr × Ptr × Nat) r' h => ?_; obtain ⟨_, _, _⟩ := r; obtain ⟨⟩ := h)
        | (refine fun (r : Ptr × _) r' h => ?_; obtain ⟨_, _⟩ := r; obtain ⟨⟩ := h)
        | rintro _ _ ⟨⟩))
    let pre ← #[``Ren.padd, ``Ren.ub_l, ``Ren.err, ``Ren.panic, ``Ren.liftO, ``Ren.liftR,
      ``Ren.ensure, ``Ren.assert, ``Ren.tread, ``Ren.rd, ``Ren.loadBytes, ``Ren.wrt, ``Ren.storeBytes, ``Ren.offset_from, ``Ren.v128_load, ``Ren.v128_store, ``Ren.v256_load,
      ``Ren.v256_store, ``Ren.ret_eq].mapM
        fun n => `(Lean.Parser.Tactic.tacticSeq| (with_reducible apply $(Lean.mkIdent n)))
    let post : Array (Lean.TSyntax ``Lean.Parser.Tactic.tacticSeq) := #[
      ← `(Lean.Parser.Tactic.tacticSeq| ((with_reducible apply Ren.ret); rfl)),
      ← `(Lean.Parser.Tactic.tacticSeq| (with_reducible refine Ren.seq ?_ fun _ => ?_)),
      ← `(Lean.Parser.Tactic.tacticSeq| (with_reducible refine Ren.forFrom (fun _ => ?_) _ _)),
      ← `(Lean.Parser.Tactic.tacticSeq| (with_reducible refine Ren.foldFrom (fun _ _ => ?_) _ _ _)),
      ← `(Lean.Parser.Tactic.tacticSeq| dsimp only [Ptr.add]), ← `(Lean.Parser.Tactic.tacticSeq| split)]
    let all := balts ++ alts ++ pre ++ post
    `(tactic| repeat' first $[| $all]*)

end Simd
