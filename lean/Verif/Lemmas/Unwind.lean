import Verif.Model.Unwind
import Verif.Props.Panics
/-
Where the programs panic: helper lemmas for C88.
-/
namespace Simd

/-- The program panics with the memory it was started with. -/
def PanicsHere {α : Type} (x : Prog α) (m : Mem) : Prop := x.catch_unwind.run m = .ok none m

theorem prog_run_load {α : Type} (p : Ptr) (n : Nat) (k : List Byte → Prog α) (m : Mem) :
    (Prog.load p n k).run m = match m.read p n with | some bs => (k bs).run m | none => .ub := by
  conv => lhs; unfold Prog.run
  cases m.read p n <;> rfl
theorem prog_run_store {α : Type} (p : Ptr) (bs : List Byte) (k : Prog α) (m : Mem) :
    (Prog.store p bs k).run m = if p.off + bs.length ≤ m.size p.buf then k.run (m.write p bs) else .ub := rfl
theorem prog_run_chk {α : Type} (p : Ptr) (k : Prog α) (m : Mem) : (Prog.chk p k).run m = if p.off ≤ m.size p.buf then k.run m else .ub := rfl

theorem catch_bind_ok {α β : Type} {f : α → Prog β} : ∀ {x : Prog α} {m m' : Mem} {a : α}, x.run m = .ok a m' →
    (x >>= f).catch_unwind.run m = (f a).catch_unwind.run m' := by
  intro x
  induction x with
  | pure b => intro m m' a h; injection h with h1 h2; subst h1; subst h2; rfl
  | err => intro m m' a h; cases h
  | panic => intro m m' a h; cases h
  | ub => intro m m' a h; cases h
  | load p n k ih =>
    intro m m' a h
    show (Prog.load p n fun bs => (k bs >>= f).catch_unwind).run m = _
    rw [prog_run_load] at h ⊢
    cases hr : m.read p n with
    | none => rw [hr] at h; cases h
    | some bs => rw [hr] at h; exact ih bs h
  | store p bs k ih =>
    intro m m' a h
    show (Prog.store p bs (k >>= f).catch_unwind).run m = _
    rw [prog_run_store] at h ⊢
    split at h
    · rename_i hb; rw [if_pos hb]; exact ih h
    · cases h
  | chk p k ih =>
    intro m m' a h
    show (Prog.chk p (k >>= f).catch_unwind).run m = _
    rw [prog_run_chk] at h ⊢
    split at h
    · rename_i hb; rw [if_pos hb]; exact ih h
    · cases h
  | alloc n k ih =>
    intro m m' a h
    exact ih _ h

theorem catch_bind_panic {α β : Type} {f : α → Prog β} : ∀ {x : Prog α} {m m' : Mem}, x.catch_unwind.run m = .ok none m' →
    (x >>= f).catch_unwind.run m = .ok none m' := by
  intro x
  induction x with
  | pure b => intro m m' h; injection h with h _; cases h
  | err => intro m m' h; cases h
  | panic => intro m m' h; injection h with _ h; subst h; rfl
  | ub => intro m m' h; cases h
  | load p n k ih =>
    intro m m' h
    show (Prog.load p n fun bs => (k bs >>= f).catch_unwind).run m = _
    have h : (Prog.load p n fun bs => (k bs).catch_unwind).run m = _ := h
    rw [prog_run_load] at h ⊢
    cases hr : m.read p n with
    | none => rw [hr] at h; cases h
    | some bs => rw [hr] at h; exact ih bs h
  | store p bs k ih =>
    intro m m' h
    show (Prog.store p bs (k >>= f).catch_unwind).run m = _
    have h : (Prog.store p bs k.catch_unwind).run m = _ := h
    rw [prog_run_store] at h ⊢
    split at h
    · rename_i hb; rw [if_pos hb]; exact ih h
    · cases h
  | chk p k ih =>
    intro m m' h
    show (Prog.chk p (k >>= f).catch_unwind).run m = _
    have h : (Prog.chk p k.catch_unwind).run m = _ := h
    rw [prog_run_chk] at h ⊢
    split at h
    · rename_i hb; rw [if_pos hb]; exact ih h
    · cases h
  | alloc n k ih =>
    intro m m' h
    exact ih _ h

/-- What catching a panic does to the three other outcomes: nothing. -/
theorem catch_run {α : Type} : ∀ (x : Prog α) (m : Mem),
    match x.run m with
    | .ok a m' => x.catch_unwind.run m = .ok (some a) m'
    | .err m' => x.catch_unwind.run m = .err m'
    | .ub => x.catch_unwind.run m = .ub
    | .panic => ∃ m', x.catch_unwind.run m = .ok none m' := by
  intro x
  induction x with
  | pure b => intro m; rfl
  | err => intro m; rfl
  | panic => intro m; exact ⟨m, rfl⟩
  | ub => intro m; rfl
  | load p n k ih =>
    intro m
    show match (Prog.load p n k).run m with
      | .ok a m' => (Prog.load p n fun bs => (k bs).catch_unwind).run m = .ok (some a) m'
      | .err m' => (Prog.load p n fun bs => (k bs).catch_unwind).run m = .err m'
      | .ub => (Prog.load p n fun bs => (k bs).catch_unwind).run m = .ub
      | .panic => ∃ m', (Prog.load p n fun bs => (k bs).catch_unwind).run m = .ok none m'
    rw [prog_run_load, prog_run_load]
    cases hr : m.read p n with
    | none => rfl
    | some bs => exact ih bs m
  | store p bs k ih =>
    intro m
    have e1 : (Prog.store p bs k).run m = if p.off + bs.length ≤ m.size p.buf then k.run (m.write p bs) else .ub := rfl
    have e2 : (Prog.store p bs k).catch_unwind.run m = if p.off + bs.length ≤ m.size p.buf then k.catch_unwind.run (m.write p bs) else .ub := rfl
    rw [e1, e2]
    by_cases hb : p.off + bs.length ≤ m.size p.buf
    · rw [if_pos hb, if_pos hb]; exact ih _
    · rw [if_neg hb, if_neg hb]
  | chk p k ih =>
    intro m
    have e1 : (Prog.chk p k).run m = if p.off ≤ m.size p.buf then k.run m else .ub := rfl
    have e2 : (Prog.chk p k).catch_unwind.run m = if p.off ≤ m.size p.buf then k.catch_unwind.run m else .ub := rfl
    rw [e1, e2]
    by_cases hb : p.off ≤ m.size p.buf
    · rw [if_pos hb, if_pos hb]; exact ih _
    · rw [if_neg hb, if_neg hb]
  | alloc n k ih => intro m; exact ih m.nbuf _

namespace PanicsHere

theorem here {α : Type} (m : Mem) : PanicsHere (.panic : Prog α) m := rfl

theorem bind {α β : Type} {x : Prog α} {f : α → Prog β} {m : Mem} (h : PanicsHere x m) : PanicsHere (x >>= f) m := catch_bind_panic h

theorem after {α β : Type} {x : Prog α} {f : α → Prog β} {m : Mem} {a : α} (hx : x.run m = .ok a m) (h : PanicsHere (f a) m) : PanicsHere (x >>= f) m :=
  (catch_bind_ok hx).trans h

theorem asserts {β : Type} {b : Bool} {f : Unit → Prog β} {m : Mem} (h : b = false) : PanicsHere (assert b >>= f) m := by subst h; exact .bind (.here m)

end PanicsHere

theorem reserve_here {P : Plat} {extra n : Nat} {v : RVec} (h : ¬ Spec.CanGrow P extra v n) (m : Mem) : PanicsHere (v.reserve_exact P extra n) m := by
  rw [reserve_panic h]; exact .here m

/-! ### Encoders -/

namespace EncApi
variable (A : EncApi)

theorem boxed_here (P : Plat) {m : Mem} {p : Ptr} {xs : List Byte} (hd : (A.enc xs).length ≤ P.usizeMax) (h : P.usizeMax / 2 < (A.enc xs).length) :
    PanicsHere (A.boxed P ⟨p, xs.length⟩) m := by
  have hl := A.hlen xs
  have hne : xs ≠ [] := by rintro rfl; rw [A.hnil] at h; simp at h
  have hpos : 0 < xs.length := List.length_pos_iff.2 hne
  unfold boxed
  simp only
  rw [if_neg (by omega), A.hL P _ (by omega)]
  show PanicsHere (assert (decide (A.elen xs.length ≤ P.usizeMax / 2)) >>= _ : Prog Slice) m
  exact .asserts (decide_eq_false (by omega))

theorem append_here (P : Plat) (extra : Nat) {m : Mem} {p : Ptr} {xs : List Byte} {v : RVec} (hd : (A.enc xs).length ≤ P.usizeMax)
    (h : ¬ ((A.enc xs).length ≤ P.usizeMax / 2 ∧ Spec.CanGrow P extra v (A.enc xs).length)) :
    PanicsHere (A.append P extra ⟨p, xs.length⟩ v) m := by
  have hl := A.hlen xs
  have hne : xs ≠ [] := by rintro rfl; rw [A.hnil] at h; exact h ⟨Nat.zero_le _, .inl (Nat.zero_le _)⟩
  have hpos : 0 < xs.length := List.length_pos_iff.2 hne
  unfold append
  simp only
  rw [if_neg (by omega), A.hL P _ (by omega)]
  show PanicsHere (assert (decide (A.elen xs.length ≤ P.usizeMax / 2)) >>= _ : Prog RVec) m
  by_cases hh : A.elen xs.length ≤ P.usizeMax / 2
  · rw [decide_eq_true hh]
    show PanicsHere (v.reserve_exact P extra (A.elen xs.length) >>= _ : Prog RVec) m
    exact .bind (reserve_here (by rw [← hl]; exact fun hg => h ⟨by omega, hg⟩) m)
  · exact .asserts (decide_eq_false hh)

end EncApi

/-! ### Decoders -/

theorem DecApi.append_here (A : DecApi) (P : Plat) (extra : Nat) {m : Mem} {p : Ptr} {xs : List Byte} {v : RVec} (hx : HasBytes m p xs)
    (h : ∃ k m', (A.lengthFn ⟨p, xs.length⟩).run m = .ok k m' ∧ ¬ Spec.CanGrow P extra v k) : PanicsHere (A.append P extra ⟨p, xs.length⟩ v) m := by
  obtain ⟨k', m', h1, hg⟩ := h
  rw [A.lengthFn_any hx] at h1
  cases hd : A.dlen xs with
  | none => rw [hd] at h1; cases h1
  | some r =>
    obtain ⟨n, k⟩ := r
    rw [hd] at h1
    injection h1 with h1 _; subst h1
    have hne : xs ≠ [] := by
      rintro rfl
      rw [A.hnil] at hd; cases hd
      exact hg (.inl (Nat.zero_le _))
    have hpos : 0 < xs.length := List.length_pos_iff.2 hne
    unfold append
    simp only
    rw [if_neg (by omega)]
    refine .after (a := some (n, k)) ?_ ?_
    · rw [run_attempt, A.hD _ _ _ hx, hd]
    · exact .bind (reserve_here hg m)

end Simd
