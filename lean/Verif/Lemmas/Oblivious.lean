import Verif.Lemmas.Raw
import Verif.Lemmas.Par
import Verif.Lemmas.Ops
import Verif.Model.Trace
/-
Two runs in lockstep: `Obl` relates two programs that make the same accesses whatever bytes they load, until one of them stops with an error.
-/
namespace Simd

variable {α β : Type}

/-- Both programs make the same accesses, whatever bytes are loaded, as long as neither of them stops with an error, a panic or
undefined behaviour; if both return, the results satisfy `R`. -/
def Obl (R : α → α → Prop) : Prog α → Prog α → Prop
  | .pure a, .pure b => R a b
  | .load p n k, .load p' n' k' => p = p' ∧ n = n' ∧ ∀ bs bs', bs.length = n → bs'.length = n' → Obl R (k bs) (k' bs')
  | .store p bs k, .store p' bs' k' => p = p' ∧ bs.length = bs'.length ∧ Obl R k k'
  | .chk _ k, .chk _ k' => Obl R k k'
  | .err, _ => True
  | _, .err => True
  | .panic, _ => True
  | _, .panic => True
  | .ub, _ => True
  | _, .ub => True
  | _, _ => False

/-- `Obl` without a claim about the results. -/
abbrev Obl' (x y : Prog α) : Prop := Obl (fun _ _ => True) x y

namespace Obl
variable {R : α → α → Prop} {S : β → β → Prop}

theorem err_l {y : Prog α} : Obl R .err y := by cases y <;> trivial
theorem err_r {x : Prog α} : Obl R x .err := by cases x <;> trivial
theorem panic_l {y : Prog α} : Obl R .panic y := by cases y <;> trivial
theorem panic_r {x : Prog α} : Obl R x .panic := by cases x <;> trivial
theorem ub_l {y : Prog α} : Obl R .ub y := by cases y <;> trivial
theorem ub_r {x : Prog α} : Obl R x .ub := by cases x <;> trivial

theorem bind' {x y : Prog α} {f g : α → Prog β} (h : Obl R x y) (hf : ∀ a b, R a b → Obl S (f a) (g b)) :
    Obl S (Prog.bind x f) (Prog.bind y g) := by
  induction x generalizing y with
  | pure a =>
    cases y <;> first | exact hf _ _ h | exact err_r | exact panic_r | exact ub_r | exact h.elim
  | err => exact err_l
  | panic => exact panic_l
  | ub => exact ub_l
  | load p n k ih =>
    cases y <;> first | exact ⟨h.1, h.2.1, fun bs bs' h1 h2 => ih bs (h.2.2 bs bs' h1 h2)⟩ | exact err_r | exact panic_r | exact ub_r | exact h.elim
  | store p bs k ih =>
    cases y <;> first | exact ⟨h.1, h.2.1, ih h.2.2⟩ | exact err_r | exact panic_r | exact ub_r | exact h.elim
  | chk p k ih =>
    cases y <;> first | exact ih h | exact err_r | exact panic_r | exact ub_r | exact h.elim
  | alloc n k ih =>
    cases y <;> first | exact err_r | exact panic_r | exact ub_r | exact h.elim

theorem bind {x y : Prog α} {f g : α → Prog β} (h : Obl R x y) (hf : ∀ a b, R a b → Obl S (f a) (g b)) : Obl S (x >>= f) (y >>= g) := bind' h hf
theorem seq {x y : Prog α} {f g : α → Prog β} (h : Obl' x y) (hf : ∀ a b, Obl S (f a) (g b)) : Obl S (x >>= f) (y >>= g) :=
  bind h fun a b _ => hf a b
theorem ret {a b : α} (h : R a b) : Obl R (pure a : Prog α) (pure b) := h
theorem ret_true {a b : α} : Obl' (pure a : Prog α) (pure b) := trivial
theorem ret_eq {a : α} : Obl Eq (pure a : Prog α) (pure a) := rfl

theorem rd (p i) : Obl' (rd p i) (rd p i) := ⟨rfl, rfl, fun _ _ _ _ => trivial⟩
theorem loadBytes (p n) : Obl' (loadBytes p n) (loadBytes p n) := ⟨rfl, rfl, fun _ _ _ _ => trivial⟩
theorem loadLen (p n) : Obl (fun a b : List Byte => a.length = b.length) (Simd.loadBytes p n) (Simd.loadBytes p n) :=
  ⟨rfl, rfl, fun _ _ h h' => h.trans h'.symm⟩
theorem tread (t u : List Byte) (i j) : Obl' (tread t i) (tread u j) := by
  unfold Simd.tread; split
  · split
    · trivial
    · exact ub_r
  · exact ub_l
theorem padd (p n q k) : Obl' (padd p n) (padd q k) := trivial
theorem psub (p n) : Obl Eq (psub p n) (psub p n) := by
  unfold Simd.psub; split
  · exact ret_eq
  · exact ub_l
theorem liftO (o o' : Option α) : Obl' (liftO o) (liftO o') := by
  cases o
  · exact panic_l
  · cases o'
    · exact panic_r
    · trivial
theorem liftOE (o : Option α) : Obl Eq (Simd.liftO o) (Simd.liftO o) := by
  cases o
  · exact panic_l
  · exact ret_eq
theorem liftR (o o' : Vs.Res α) : Obl' (liftR o) (liftR o') := by
  cases o with
  | none => exact panic_l
  | some r =>
    cases r with
    | error e => exact err_l
    | ok a =>
      cases o' with
      | none => exact panic_r
      | some r => cases r <;> first | exact err_r | trivial
theorem ensure (b b') : Obl' (ensure b) (ensure b') := by cases b <;> cases b' <;> first | trivial
theorem assert (b b') : Obl' (assert b) (assert b') := by cases b <;> cases b' <;> trivial
theorem wrt (p i x y) : Obl' (wrt p i x) (wrt p i y) := ⟨rfl, rfl, trivial⟩
theorem storeBytes {p : Ptr} {bs bs' : List Byte} (h : bs.length = bs'.length) : Obl' (storeBytes p bs) (storeBytes p bs') := ⟨rfl, h, trivial⟩

theorem forFrom {f g : Nat → Prog Unit} (h : ∀ i, Obl' (f i) (g i)) : ∀ n i, Obl' (forFrom f i n) (forFrom g i n)
  | 0, _ => trivial
  | n + 1, i => seq (h i) fun _ _ => forFrom h n (i + 1)
theorem foldFrom {σ : Type} {f g : Nat → σ → Prog σ} (h : ∀ i s t, Obl' (f i s) (g i t)) : ∀ n i s t, Obl' (foldFrom f i n s) (foldFrom g i n t)
  | 0, _, _, _ => trivial
  | n + 1, i, s, t => seq (h i s t) fun s t => foldFrom h n (i + 1) s t

theorem v128_load (s p) : Obl' (Vs.v128_load s p) (Vs.v128_load s p) := by
  unfold Vs.v128_load
  repeat' split
  all_goals first | exact seq (loadBytes _ _) fun _ _ => trivial | exact panic_l
theorem v128_store (s p x y) : Obl' (Vs.v128_store s p x) (Vs.v128_store s p y) := by
  unfold Vs.v128_store
  repeat' split
  all_goals first | exact storeBytes ((Vec.toList_length x).trans (Vec.toList_length y).symm) | exact panic_l
theorem v256_load (s p) : Obl' (Vs.v256_load s p) (Vs.v256_load s p) := by
  unfold Vs.v256_load
  repeat' split
  · exact seq (loadBytes _ _) fun _ _ => trivial
  · exact seq (loadBytes _ _) fun _ _ => trivial
  · exact seq (v128_load _ _) fun _ _ => seq (padd _ _ _ _) fun _ _ => seq (v128_load _ _) fun _ _ => trivial
theorem v256_store (s p x y) : Obl' (Vs.v256_store s p x) (Vs.v256_store s p y) := by
  unfold Vs.v256_store
  repeat' split
  · exact storeBytes ((Vec.toList_length x).trans (Vec.toList_length y).symm)
  · exact storeBytes ((Vec.toList_length x).trans (Vec.toList_length y).symm)
  · exact seq (v128_store _ _ _ _) fun _ _ => seq (padd _ _ _ _) fun _ _ => v128_store _ _ _ _

end Obl

theorem read_length {m : Mem} {p : Ptr} {n : Nat} {bs : List Byte} (h : m.read p n = some bs) : bs.length = n := by
  unfold Mem.read at h
  split at h
  · rename_i hs
    clear hs
    generalize p.off = o at h
    induction n generalizing o bs with
    | zero => cases h; rfl
    | succ n ih =>
      simp only [Mem.readFrom] at h
      split at h
      · rename_i h2; cases h; simp [ih _ h2]
      · cases h
  · cases h

/-- The outcome is a return or an error. -/
def Out.Stops : Out α → Prop
  | .ok _ _ => True
  | .err _ => True
  | .panic => False
  | .ub => False

/-- Two runs of programs in lockstep: the accesses of the one that stops earlier are the first of the accesses of the other. -/
theorem Obl.trace {R : α → α → Prop} {x y : Prog α} {m m' : Mem} (h : Obl R x y) (hx : (x.run m).Stops) (hy : (y.run m').Stops) :
    ((∃ a f, x.run m = .ok a f) → y.trace m' <+: x.trace m) ∧ ((∃ a f, y.run m' = .ok a f) → x.trace m <+: y.trace m') ∧
      (x.trace m <+: y.trace m' ∨ y.trace m' <+: x.trace m) := by
  induction x generalizing y m m' with
  | pure a =>
    cases y with
    | pure b => simp [Prog.trace]
    | err => simp [Prog.trace, Prog.run]
    | panic => exact hy.elim
    | ub => exact hy.elim
    | _ => exact h.elim
  | err =>
    refine ⟨?_, fun _ => ?_, .inl ?_⟩
    · rintro ⟨a, f, h⟩; cases h
    · exact List.nil_prefix
    · exact List.nil_prefix
  | panic => exact hx.elim
  | ub => exact hx.elim
  | load p n k ih =>
    cases y with
    | err =>
      refine ⟨fun _ => List.nil_prefix, ?_, .inr List.nil_prefix⟩
      rintro ⟨a, f, h⟩; cases h
    | panic => exact hy.elim
    | ub => exact hy.elim
    | load p' n' k' =>
      obtain ⟨rfl, rfl, h⟩ := h
      simp only [Prog.run, Prog.trace] at hx hy ⊢
      cases h1 : m.read p n with
      | none => rw [h1] at hx; exact hx.elim
      | some bs =>
        cases h2 : m'.read p n with
        | none => rw [h2] at hy; exact hy.elim
        | some bs' =>
          rw [h1] at hx
          rw [h2] at hy
          have := ih bs (h bs bs' (read_length h1) (read_length h2)) hx hy
          simpa only [List.cons_prefix_cons, true_and] using this
    | _ => exact h.elim
  | store p bs k ih =>
    cases y with
    | err =>
      refine ⟨fun _ => List.nil_prefix, ?_, .inr List.nil_prefix⟩
      rintro ⟨a, f, h⟩; cases h
    | panic => exact hy.elim
    | ub => exact hy.elim
    | store p' bs' k' =>
      obtain ⟨rfl, hl, h⟩ := h
      simp only [Prog.run, Prog.trace] at hx hy ⊢
      split at hx
      · split at hy
        · rename_i h1 h2
          have := ih h hx hy
          rw [if_pos h1, if_pos h2, if_pos h1, if_pos h2]
          simpa only [hl, List.cons_prefix_cons, true_and] using this
        · exact hy.elim
      · exact hx.elim
    | _ => exact h.elim
  | chk p k ih =>
    cases y with
    | err =>
      refine ⟨fun _ => List.nil_prefix, ?_, .inr List.nil_prefix⟩
      rintro ⟨a, f, h⟩; cases h
    | panic => exact hy.elim
    | ub => exact hy.elim
    | chk p' k' =>
      simp only [Prog.run, Prog.trace] at hx hy ⊢
      split at hx
      · split at hy
        · rename_i h1 h2
          have := ih h hx hy
          rwa [if_pos h1, if_pos h2, if_pos h1, if_pos h2]
        · exact hy.elim
      · exact hx.elim
    | _ => exact h.elim
  | alloc n k ih =>
    cases y with
    | err =>
      refine ⟨fun _ => List.nil_prefix, ?_, .inr List.nil_prefix⟩
      rintro ⟨a, f, h⟩; cases h
    | panic => exact hy.elim
    | ub => exact hy.elim
    | _ => exact h.elim

/-- The accesses of a sequence. -/
theorem trace_bind {x : Prog α} {f : α → Prog β} {m : Mem} :
    (Prog.bind x f).trace m = x.trace m ++ match x.run m with
      | .ok a m' => (f a).trace m'
      | _ => [] := by
  induction x generalizing m with
  | pure a => rfl
  | err => rfl
  | panic => rfl
  | ub => rfl
  | load p n k ih =>
    simp only [Prog.bind, Prog.trace, Prog.run]
    cases m.read p n with
    | none => rfl
    | some bs => simp [ih]
  | store p bs k ih =>
    simp only [Prog.bind, Prog.trace, Prog.run]
    split <;> simp [ih]
  | chk p k ih =>
    simp only [Prog.bind, Prog.trace, Prog.run]
    split <;> simp [ih]
  | alloc n k ih => simp only [Prog.bind, Prog.trace, Prog.run, ih]

attribute [irreducible] Obl

/-- Follows the text of two programs at once; the lemmas in the first list handle the functions they call, those in the second list the
calls that return pointers and lengths. -/
syntax "obl" "[" term,* "]" "[" term,* "]" : tactic
macro_rules
  | `(tactic| obl [$ts,*] [$bs,*]) => do
    let alts ← ts.getElems.mapM fun t => `(Lean.Parser.Tactic.tacticSeq| (with_reducible apply $t))
    let balts ← bs.getElems.mapM fun t => `(Lean.Parser.Tactic.tacticSeq|
      ((with_reducible apply Obl.bind); (with_reducible apply $t); rintro _ _ ⟨⟩))
    let pre ← #[``Obl.padd, ``Obl.err_l, ``Obl.err_r, ``Obl.ub_l, ``Obl.ub_r, ``Obl.panic_l, ``Obl.panic_r, ``Obl.liftO, ``Obl.liftR,
      ``Obl.ensure, ``Obl.assert, ``Obl.tread, ``Obl.rd, ``Obl.loadBytes, ``Obl.wrt, ``Obl.v128_load, ``Obl.v128_store, ``Obl.v256_load,
      ``Obl.v256_store, ``Obl.ret_true, ``Obl.ret_eq].mapM
        fun n => `(Lean.Parser.Tactic.tacticSeq| (with_reducible apply $(Lean.mkIdent n)))
    let post : Array (Lean.TSyntax ``Lean.Parser.Tactic.tacticSeq) := #[
      ← `(Lean.Parser.Tactic.tacticSeq| ((with_reducible apply Obl.storeBytes); first | rfl | simp; done)),
      ← `(Lean.Parser.Tactic.tacticSeq| (with_reducible refine Obl.seq ?_ fun _ _ => ?_)),
      ← `(Lean.Parser.Tactic.tacticSeq| (with_reducible refine Obl.forFrom (fun _ => ?_) _ _)),
      ← `(Lean.Parser.Tactic.tacticSeq| (with_reducible refine Obl.foldFrom (fun _ _ _ => ?_) _ _ _ _)),
      ← `(Lean.Parser.Tactic.tacticSeq| dsimp only), ← `(Lean.Parser.Tactic.tacticSeq| split)]
    let all := balts ++ alts ++ pre ++ post
    `(tactic| repeat' first $[| $all]*)

end Simd
