import Verif.Model.Allocs
import Verif.Spec.Allocs
import Verif.Lemmas.Ren
import Verif.Lemmas.Api
/-
Allocations of sequences, of programs that allocate nothing, and of the functions that allocate, generic in the encoding.
-/
namespace Simd

variable {α β : Type}

theorem allocs_bind {x : Prog α} {f : α → Prog β} {m : Mem} :
    (x >>= f).allocs m = x.allocs m ++ match x.run m with
      | .ok a m' => (f a).allocs m'
      | _ => [] := by
  change (Prog.bind x f).allocs m = _
  induction x generalizing m with
  | pure a => rfl
  | err => rfl
  | panic => rfl
  | ub => rfl
  | load p n k ih =>
    simp only [Prog.bind, Prog.allocs, Prog.run]
    cases m.read p n with
    | none => rfl
    | some bs => simp [ih]
  | store p bs k ih =>
    simp only [Prog.bind, Prog.allocs, Prog.run]
    split <;> simp [ih]
  | chk p k ih =>
    simp only [Prog.bind, Prog.allocs, Prog.run]
    split <;> simp [ih]
  | alloc n k ih =>
    simp only [Prog.bind, Prog.allocs, Prog.run, ih]
    split <;> simp

unseal Uses in
theorem NoAlloc.allocs {x : Prog α} (h : NoAlloc x) (m : Mem) : x.allocs m = [] := by
  induction x generalizing m with
  | pure a => rfl
  | err => rfl
  | panic => rfl
  | ub => rfl
  | load p n k ih =>
    simp only [Prog.allocs]
    cases m.read p n with
    | none => rfl
    | some bs => exact ih bs (And.right h bs) m
  | store p bs k ih =>
    simp only [Prog.allocs]
    split
    · exact ih (And.right h) _
    · rfl
  | chk p k ih =>
    simp only [Prog.allocs]
    split
    · exact ih h _
    · rfl
  | alloc n k ih => exact False.elim h

/-- A first part that allocates nothing and returns `a`. -/
theorem allocs_seq {x : Prog α} {f : α → Prog β} {m m' : Mem} {a : α} (hx : NoAlloc x) (hr : x.run m = .ok a m') : (x >>= f).allocs m = (f a).allocs m' := by
  rw [allocs_bind, hx.allocs, hr]; rfl

/-- A last part that allocates nothing. -/
theorem allocs_then {x : Prog α} {f : α → Prog β} {m : Mem} (hf : ∀ a, NoAlloc (f a)) : (x >>= f).allocs m = x.allocs m := by
  rw [allocs_bind]
  cases x.run m with
  | ok a m' => simp [(hf a).allocs]
  | _ => simp

theorem noalloc_assume_init (s : Slice) : NoAlloc (assume_init s) := (Uses.loadBytes trivial _).seq fun _ => Uses.ret_true

theorem noalloc_set_len (v : RVec) (n : Nat) : NoAlloc (v.set_len n) := by
  unfold RVec.set_len
  split
  · exact (Uses.loadBytes trivial _).seq fun _ => Uses.ret_true
  · exact Uses.ub

/-- A box of exactly `n` bytes, filled by `body`. -/
theorem box_allocs {P : Plat} {n : Nat} {body : Ptr → Prog Unit} (h0 : 0 < n) (hn : n ≤ P.isizeMax) (hb : ∀ q, NoAlloc (body q)) (m : Mem) :
    (alloc_uninit_bytes P n >>= fun buf => body buf.ptr >>= fun _ => assume_init buf : Prog Slice).allocs m = Spec.fresh n := by
  rw [allocs_then fun _ => (hb _).seq fun _ => noalloc_assume_init _]
  unfold alloc_uninit_bytes Spec.fresh
  rw [if_pos ⟨h0, hn⟩]
  rfl

theorem reserve_allocs {P : Plat} {extra : Nat} {v : RVec} {prev : List Byte} {n : Nat} {m : Mem} (hv : VecIs m v prev) (hn : 0 < n) :
    (v.reserve_exact P extra n).allocs m = Spec.grow P extra v n := by
  unfold RVec.reserve_exact Spec.grow
  split
  · rfl
  · split
    · have hr : (loadBytes ⟨v.buf, 0⟩ v.len).run m = .ok prev m := by
        simp only [loadBytes, Prog.run, hv.bytes.read' hv.len.symm]
      rw [allocs_seq (Uses.loadBytes trivial _) hr]
      simp only [Prog.allocs]
      rw [if_neg (by omega)]
      congr 1
      exact NoAlloc.allocs ((Uses.storeBytes trivial _).seq fun _ => Uses.ret_true) _
    · rfl

namespace EncApi
variable (A : EncApi)

theorem boxed_allocs (P : Plat) (hb : ∀ p n q, NoAlloc (A.body p n q)) (p : Ptr) (xs : List Byte) (hd : (A.enc xs).length ≤ P.usizeMax) (m : Mem) :
    (A.boxed P ⟨p, xs.length⟩).allocs m = if (A.enc xs).length ≤ P.usizeMax / 2 then Spec.fresh (A.enc xs).length else [] := by
  have hu := isizeMax_le P
  have hl := A.hlen xs
  unfold boxed
  by_cases h0 : xs = []
  · subst h0
    rw [if_pos List.length_nil, A.hnil]
    simp [Spec.fresh, box_empty, Prog.allocs]
  · have hpos : 0 < xs.length := List.length_pos_iff.2 h0
    simp only
    rw [if_neg (by omega), A.hL P _ (by omega), hl]
    show (assert (decide (A.elen xs.length ≤ P.usizeMax / 2)) >>= _ : Prog Slice).allocs _ = _
    split <;> rename_i hc
    · rw [decide_eq_true hc]
      exact box_allocs (body := fun q => A.body p xs.length q) (A.hpos _ hpos) (by omega) (fun q => hb _ _ q) m
    · rw [decide_eq_false hc]; rfl

theorem append_allocs (P : Plat) (extra : Nat) (hb : ∀ p n q, NoAlloc (A.body p n q)) (p : Ptr) (xs : List Byte) (hd : (A.enc xs).length ≤ P.usizeMax)
    {m : Mem} {v : RVec} {prev : List Byte} (hv : VecIs m v prev) :
    (A.append P extra ⟨p, xs.length⟩ v).allocs m = if (A.enc xs).length ≤ P.usizeMax / 2 then Spec.grow P extra v (A.enc xs).length else [] := by
  have hl := A.hlen xs
  unfold append
  by_cases h0 : xs = []
  · subst h0
    rw [if_pos List.length_nil, A.hnil]
    simp [Spec.grow, Prog.allocs, pure]
  · have hpos : 0 < xs.length := List.length_pos_iff.2 h0
    simp only
    rw [if_neg (by omega), A.hL P _ (by omega), hl]
    show (assert (decide (A.elen xs.length ≤ P.usizeMax / 2)) >>= _ : Prog RVec).allocs _ = _
    split <;> rename_i hc
    · rw [decide_eq_true hc]
      show (v.reserve_exact P extra (A.elen xs.length) >>= _ : Prog RVec).allocs m = _
      rw [allocs_then fun _ => (Uses.padd _ _).seq fun _ => (hb _ _ _).seq fun _ => (Uses.liftO _).seq fun _ => noalloc_set_len _ _]
      exact reserve_allocs hv (A.hpos _ hpos)
    · rw [decide_eq_false hc]; rfl

end EncApi

namespace DecApi
variable (A : DecApi)

theorem boxed_allocs (P : Plat) (hD : ∀ s, NoAlloc (A.D s)) (hb : ∀ p q n, NoAlloc (A.body p q n)) {m : Mem} {p : Ptr} {xs : List Byte} (hx : HasBytes m p xs)
    (h : xs.length ≤ P.isizeMax) :
    (∀ n k, A.dlen xs = some (n, k) → (A.boxed P ⟨p, xs.length⟩).allocs m = Spec.fresh k) ∧
    (A.dlen xs = none → (A.boxed P ⟨p, xs.length⟩).allocs m = []) := by
  unfold boxed
  by_cases h0 : xs = []
  · subst h0
    rw [if_pos List.length_nil, A.hnil]
    exact ⟨fun n k h => (by cases h; rfl), fun h => (by cases h)⟩
  · have hpos : 0 < xs.length := List.length_pos_iff.2 h0
    simp only
    rw [if_neg (by omega)]
    constructor
    · intro n k hd
      obtain ⟨h1, -, h2⟩ := A.hle xs n k hd
      rw [allocs_seq (hD _) (a := (n, k)) (m' := m) (by rw [A.hD m p xs hx, hd])]
      exact box_allocs (body := fun q => A.body p q n) (h2 h0) (by omega) (fun q => hb _ q _) m
    · intro hd
      rw [allocs_bind, (hD _).allocs, A.hD m p xs hx, hd]
      rfl

theorem append_allocs (P : Plat) (extra : Nat) (hD : ∀ s, NoAlloc (A.D s)) (hb : ∀ p q n, NoAlloc (A.body p q n)) {m : Mem} {p : Ptr} {xs : List Byte}
    (hx : HasBytes m p xs) {v : RVec} {prev : List Byte} (hv : VecIs m v prev) :
    (∀ n k, A.dlen xs = some (n, k) → (A.append P extra ⟨p, xs.length⟩ v).allocs m = Spec.grow P extra v k) ∧
    (A.dlen xs = none → (A.append P extra ⟨p, xs.length⟩ v).allocs m = []) := by
  unfold append
  by_cases h0 : xs = []
  · subst h0
    rw [if_pos List.length_nil, A.hnil]
    exact ⟨fun n k h => (by cases h; simp [Spec.grow, Prog.allocs, pure]), fun h => (by cases h)⟩
  · have hpos : 0 < xs.length := List.length_pos_iff.2 h0
    simp only
    rw [if_neg (by omega)]
    constructor
    · intro n k hd
      obtain ⟨h1, -, h2⟩ := A.hle xs n k hd
      rw [allocs_seq (Uses.attempt (hD _)) (a := some (n, k)) (m' := m) (by rw [run_attempt, A.hD m p xs hx, hd])]
      dsimp only
      rw [allocs_then fun _ => (Uses.padd _ _).seq fun _ => (Uses.attempt (hb _ _ _)).seq fun o => by
        cases o with
        | none => exact Uses.ret_true
        | some _ => exact (Uses.liftO _).seq fun _ => (noalloc_set_len _ _).seq fun _ => Uses.ret_true]
      exact reserve_allocs hv (h2 h0)
    · intro hd
      rw [allocs_seq (Uses.attempt (hD _)) (a := none) (m' := m) (by rw [run_attempt, A.hD m p xs hx, hd])]
      rfl

end DecApi

end Simd
