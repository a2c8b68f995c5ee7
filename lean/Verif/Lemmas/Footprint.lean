import Verif.Lemmas.Par
import Verif.Lemmas.Raw
import Verif.Spec.Footprint
/-
Accesses of programs: which allocations are loaded from and stored to is read off the program text (`Uses`); which bytes, from
a run on a memory in which only the input is initialised (`trace_fin`).
-/
namespace Simd

variable {α β : Type}

/-- All loads are from allocations in `L`, all stores to allocations in `W`, nothing is allocated, and results satisfy `R`. -/
def Uses (L W : Nat → Prop) (R : α → Prop) : Prog α → Prop
  | .pure a => R a
  | .err => True
  | .panic => True
  | .ub => True
  | .load p _ k => L p.buf ∧ ∀ bs, Uses L W R (k bs)
  | .store p _ k => W p.buf ∧ Uses L W R k
  | .chk _ k => Uses L W R k
  | .alloc _ _ => False

/-- `Uses` without a claim about the result. -/
abbrev Uses' (L W : Nat → Prop) (x : Prog α) : Prop := Uses L W (fun _ => True) x

namespace Uses
variable {L W : Nat → Prop} {R : α → Prop} {S : β → Prop}

theorem bind' {x : Prog α} {f : α → Prog β} (h : Uses L W R x) (hf : ∀ a, R a → Uses L W S (f a)) : Uses L W S (Prog.bind x f) := by
  induction x with
  | pure a => exact hf a h
  | err => trivial
  | panic => trivial
  | ub => trivial
  | load p n k ih => exact ⟨h.1, fun bs => ih bs (h.2 bs)⟩
  | store p bs k ih => exact ⟨h.1, ih h.2⟩
  | chk p k ih => exact ih h
  | alloc n k ih => exact h

theorem bind {x : Prog α} {f : α → Prog β} (h : Uses L W R x) (hf : ∀ a, R a → Uses L W S (f a)) : Uses L W S (x >>= f) := bind' h hf
theorem seq {x : Prog α} {f : α → Prog β} (h : Uses' L W x) (hf : ∀ a, Uses L W S (f a)) : Uses L W S (x >>= f) :=
  bind h fun a _ => hf a
theorem ret {a : α} (h : R a) : Uses L W R (pure a : Prog α) := h
theorem ret_true {a : α} : Uses' L W (pure a : Prog α) := trivial
theorem err : Uses L W R (.err : Prog α) := trivial
theorem ub : Uses L W R (.ub : Prog α) := trivial
theorem panic : Uses L W R (.panic : Prog α) := trivial
theorem mono {x : Prog α} {R' : α → Prop} (h : Uses L W R x) (hR : ∀ a, R a → R' a) : Uses L W R' x := by
  induction x with
  | pure a => exact hR a h
  | err => trivial
  | panic => trivial
  | ub => trivial
  | load p n k ih => exact ⟨h.1, fun bs => ih bs (h.2 bs)⟩
  | store p bs k ih => exact ⟨h.1, ih h.2⟩
  | chk p k ih => exact ih h
  | alloc n k ih => exact h

theorem rd {p : Ptr} (h : L p.buf) (i) : Uses' L W (rd p i) := ⟨h, fun _ => trivial⟩
theorem loadBytes {p : Ptr} (h : L p.buf) (n) : Uses' L W (loadBytes p n) := ⟨h, fun _ => trivial⟩
theorem tread (t : List Byte) (i) : Uses' L W (tread t i) := by unfold Simd.tread; split <;> trivial
theorem padd (p n) : Uses' L W (padd p n) := trivial
theorem psub (p n) : Uses L W (fun r => r.buf = p.buf) (psub p n) := by unfold Simd.psub; split <;> first | rfl | trivial
theorem psubL {p : Ptr} (h : L p.buf) (n) : Uses L W (fun r : Ptr => L r.buf) (Simd.psub p n) := by
  unfold Simd.psub; split
  · exact h
  · trivial
theorem liftO (o : Option α) : Uses' L W (liftO o) := by cases o <;> trivial
theorem liftR (o : Vs.Res α) : Uses' L W (liftR o) := by
  cases o with
  | none => trivial
  | some r => cases r <;> trivial
theorem ensure (b) : Uses' L W (ensure b) := by cases b <;> trivial
theorem assert (b) : Uses' L W (assert b) := by cases b <;> trivial
theorem offset_from (p q : Ptr) : Uses' L W (offset_from p q) := by unfold Simd.offset_from; split; (split <;> trivial); trivial
theorem wrt {p : Ptr} (h : W p.buf) (i x) : Uses' L W (wrt p i x) := ⟨h, trivial⟩
theorem storeBytes {p : Ptr} (h : W p.buf) (bs) : Uses' L W (storeBytes p bs) := ⟨h, trivial⟩

theorem forFrom {f : Nat → Prog Unit} (h : ∀ i, Uses' L W (f i)) : ∀ n i, Uses' L W (forFrom f i n)
  | 0, _ => trivial
  | n + 1, i => seq (h i) fun _ => forFrom h n (i + 1)
theorem foldFrom {σ : Type} {f : Nat → σ → Prog σ} (h : ∀ i s, Uses' L W (f i s)) : ∀ n i s, Uses' L W (foldFrom f i n s)
  | 0, _, _ => trivial
  | n + 1, i, s => seq (h i s) fun s => foldFrom h n (i + 1) s

theorem v128_load {p : Ptr} (h : L p.buf) (s) : Uses' L W (Vs.v128_load s p) := by
  unfold Vs.v128_load
  repeat' split
  all_goals first | exact seq (loadBytes h _) fun _ => trivial | trivial
theorem v128_store {p : Ptr} (h : W p.buf) (s x) : Uses' L W (Vs.v128_store s p x) := by
  unfold Vs.v128_store
  repeat' split
  all_goals first | exact storeBytes h _ | trivial
theorem v256_load {p : Ptr} (h : L p.buf) (s) : Uses' L W (Vs.v256_load s p) := by
  unfold Vs.v256_load
  repeat' split
  · exact seq (loadBytes h _) fun _ => trivial
  · exact seq (loadBytes h _) fun _ => trivial
  · exact seq (v128_load h _) fun _ => seq (padd _ _) fun _ => seq (v128_load (p := p.add 16) h _) fun _ => trivial
theorem v256_store {p : Ptr} (h : W p.buf) (s x) : Uses' L W (Vs.v256_store s p x) := by
  unfold Vs.v256_store
  repeat' split
  · exact storeBytes h _
  · exact storeBytes h _
  · exact seq (v128_store h _ _) fun _ => seq (padd _ _) fun _ => v128_store (p := p.add 16) h _ _

theorem attempt {x : Prog α} (h : Uses' L W x) : Uses' L W x.attempt := by
  induction x with
  | pure a => trivial
  | err => trivial
  | panic => trivial
  | ub => trivial
  | load p n k ih => exact ⟨h.1, fun bs => ih bs (h.2 bs)⟩
  | store p bs k ih => exact ⟨h.1, ih h.2⟩
  | chk p k ih => exact ih h
  | alloc n k ih => exact h

end Uses

/-- Initialised cells stay initialised. -/
theorem Uses.init {L W : Nat → Prop} {R : α → Prop} {x : Prog α} {m fin : Mem} (hs : Uses L W R x)
    (h : (∃ a, x.run m = .ok a fin) ∨ x.run m = .err fin) : ∀ b i, m.cell b i ≠ none → fin.cell b i ≠ none := by
  induction x generalizing m with
  | pure a => rcases h with ⟨a, h⟩ | h <;> cases h; exact fun _ _ h => h
  | err => rcases h with ⟨a, h⟩ | h <;> cases h; exact fun _ _ h => h
  | panic => rcases h with ⟨a, h⟩ | h <;> cases h
  | ub => rcases h with ⟨a, h⟩ | h <;> cases h
  | load p n k ih =>
    simp only [Prog.run] at h
    cases hr : m.read p n with
    | none => rw [hr] at h; rcases h with ⟨a, h⟩ | h <;> cases h
    | some bs => rw [hr] at h; exact ih bs (hs.2 bs) h
  | store p bs k ih =>
    simp only [Prog.run] at h
    split at h
    · intro b i hc
      refine ih hs.2 h b i ?_
      by_cases hi : b = p.buf ∧ p.off ≤ i ∧ i < p.off + bs.length
      · rw [Mem.write_cell_in hi.1 hi.2.1 hi.2.2, List.getElem?_eq_getElem (by omega)]; simp
      · rw [Mem.write_cell_out (by omega)]; exact hc
    · rcases h with ⟨a, h⟩ | h <;> cases h
  | chk p k ih =>
    simp only [Prog.run] at h
    split at h
    · exact ih hs h
    · rcases h with ⟨a, h⟩ | h <;> cases h
  | alloc n k ih => exact hs.elim

/-- A program that runs in the memory `μ` makes the same accesses in every memory that contains `μ`; all bytes accessed are
initialised at the end. -/
theorem trace_fin {L W : Nat → Prop} {R : α → Prop} {x : Prog α} {μ M fin : Mem} (hs : Uses L W R x) (hm : Sub μ M)
    (h : (∃ a, x.run μ = .ok a fin) ∨ x.run μ = .err fin) :
    ∀ a ∈ x.trace M, match a with
      | .load r k => L r.buf ∧ ∀ i, i < k → fin.cell r.buf (r.off + i) ≠ none
      | .store r k => W r.buf ∧ ∀ i, i < k → fin.cell r.buf (r.off + i) ≠ none := by
  induction x generalizing μ M with
  | pure a => intro a ha; cases ha
  | err => intro a ha; cases ha
  | panic => intro a ha; cases ha
  | ub => intro a ha; cases ha
  | load p n k ih =>
    have h' := h
    simp only [Prog.run] at h
    cases hr : μ.read p n with
    | none => rw [hr] at h; rcases h with ⟨a, h⟩ | h <;> cases h
    | some bs =>
      rw [hr] at h
      intro a ha
      simp only [Prog.trace, hm.read hr, List.mem_cons] at ha
      rcases ha with rfl | ha
      · exact ⟨hs.1, fun i hi => hs.init h' _ _ (read_cells hr _ (by omega) (by omega))⟩
      · exact ih bs (hs.2 bs) hm h a ha
  | store p bs k ih =>
    simp only [Prog.run] at h
    split at h
    · rename_i hb
      intro a ha
      simp only [Prog.trace] at ha
      rw [if_pos (Nat.le_trans hb (hm.size _))] at ha
      simp only [List.mem_cons] at ha
      rcases ha with rfl | ha
      · refine ⟨hs.1, fun i hi => hs.2.init h _ _ ?_⟩
        rw [Mem.write_cell_in rfl (by omega) (by omega), List.getElem?_eq_getElem (by omega)]; simp
      · exact ih hs.2 (hm.write p bs) h a ha
    · rcases h with ⟨a, h⟩ | h <;> cases h
  | chk p k ih =>
    simp only [Prog.run] at h
    split at h
    · rename_i hb
      intro a ha
      simp only [Prog.trace] at ha
      rw [if_pos (Nat.le_trans hb (hm.size _))] at ha
      exact ih hs hm h a ha
    · rcases h with ⟨a, h⟩ | h <;> cases h
  | alloc n k ih => exact hs.elim

theorem readFrom_congr {m m₂ : Mem} {b : Nat} : ∀ (n o : Nat), (∀ i, i < n → m₂.cell b (o + i) = m.cell b (o + i)) → m₂.readFrom b o n = m.readFrom b o n
  | 0, _, _ => rfl
  | n + 1, o, h => by
    have h0 := h 0 (by omega)
    simp only [Nat.add_zero] at h0
    have h1 := readFrom_congr (m := m) (m₂ := m₂) (b := b) n (o + 1) (fun i hi => by
      rw [show o + 1 + i = o + (i + 1) by omega]; exact h (i + 1) (by omega))
    simp only [Mem.readFrom, h0, h1]

/-- All loads of the trace are of bytes in `R`, all stores of bytes in `W`. -/
def Inside (R W : Nat → Nat → Prop) (t : List Access) : Prop :=
  ∀ a ∈ t, match a with
    | .load p n => ∀ b i, Spec.In p n b i → R b i
    | .store p n => ∀ b i, Spec.In p n b i → W b i

theorem Inside.tail {R W : Nat → Nat → Prop} {a t} (h : Inside R W (a :: t)) : Inside R W t := fun x hx => h x (.tail _ hx)

/-- The memory in which only the `n` bytes at `p` are initialised. -/
def Mem.keep (m : Mem) (p : Ptr) (n : Nat) : Mem :=
  { m with cell := fun b i => if b = p.buf ∧ p.off ≤ i ∧ i < p.off + n then m.cell b i else none }

theorem Mem.keep_sub (m : Mem) (p : Ptr) (n : Nat) : Sub (m.keep p n) m where
  size := fun _ => Nat.le_refl _
  cell := fun b i v h => by
    simp only [Mem.keep] at h
    split at h
    · exact h
    · cases h

theorem Mem.keep_reads {m : Mem} {p : Ptr} {xs : List Byte} (h : Spec.Reads m p xs) : Spec.Reads (m.keep p xs.length) p xs :=
  ⟨h.1, fun i hi => by
    simp only [Mem.keep]
    rw [if_pos ⟨trivial, by omega, by omega⟩, h.2 i hi]⟩

theorem Mem.keep_cell {m : Mem} {p : Ptr} {n b i} (h : (m.keep p n).cell b i ≠ none) : Spec.In p n b i := by
  simp only [Mem.keep] at h
  split at h
  · assumption
  · exact absurd rfl h

/-- What the final memory of a run on `m.keep p n` says about the accesses of a run on `m`. -/
theorem confined {x : Prog α} {R : α → Prop} {m fin : Mem} {p q : Ptr} {n d : Nat} (hpq : p.buf ≠ q.buf)
    (hs : Uses (· = p.buf) (· = q.buf) R x)
    (h : (∃ a, x.run (m.keep p n) = .ok a fin) ∨ x.run (m.keep p n) = .err fin)
    (hf : ∀ b o, (∀ i, i < d → ¬ (b = q.buf ∧ o = q.off + i)) → fin.cell b o = (m.keep p n).cell b o) :
    Spec.Confined (x.trace m) p n q d := by
  intro a ha
  have h1 := trace_fin hs (m.keep_sub p n) h a ha
  have hin : ∀ b i, fin.cell b i ≠ none → Spec.In p n b i ∨ Spec.In q d b i := by
    intro b i hc
    by_cases hq : Spec.In q d b i
    · exact .inr hq
    · rw [hf b i (by rintro j hj ⟨h1, h2⟩; exact hq ⟨h1, by omega, by omega⟩)] at hc
      exact .inl (Mem.keep_cell hc)
  cases a with
  | load r k =>
    intro i hi
    rcases hin _ _ (h1.2 i hi) with h | h
    · exact h
    · exact absurd (h1.1.symm.trans h.1) hpq
  | store r k =>
    intro i hi
    rcases hin _ _ (h1.2 i hi) with h | h
    · exact absurd (h.1.symm.trans h1.1) hpq
    · exact h

theorem readOnly {x : Prog α} {R : α → Prop} {m fin : Mem} {p : Ptr} {n : Nat} {L : Nat → Prop} (hs : Uses L (fun _ => False) R x)
    (h : (∃ a, x.run (m.keep p n) = .ok a fin) ∨ x.run (m.keep p n) = .err fin) (hf : fin = m.keep p n) :
    Spec.ReadOnly (x.trace m) p n := by
  intro a ha
  have h1 := trace_fin hs (m.keep_sub p n) h a ha
  cases a with
  | load r k => exact ⟨r, k, rfl, fun i hi => Mem.keep_cell (hf ▸ h1.2 i hi)⟩
  | store r k => exact h1.1.elim

/-- In place: all accesses are to the slice itself. -/
theorem confined_inplace {x : Prog α} {L W : Nat → Prop} {R : α → Prop} {m fin : Mem} {p : Ptr} {n : Nat}
    (hs : Uses L W R x)
    (h : (∃ a, x.run (m.keep p n) = .ok a fin) ∨ x.run (m.keep p n) = .err fin)
    (hf : ∀ b o, (∀ i, i < n → ¬ (b = p.buf ∧ o = p.off + i)) → fin.cell b o = (m.keep p n).cell b o) :
    Spec.Confined (x.trace m) p n p n := by
  intro a ha
  have h1 := trace_fin hs (m.keep_sub p n) h a ha
  have hin : ∀ b i, fin.cell b i ≠ none → Spec.In p n b i := by
    intro b i hc
    by_cases hq : Spec.In p n b i
    · exact hq
    · rw [hf b i (by rintro j hj ⟨h1, h2⟩; exact hq ⟨h1, by omega, by omega⟩)] at hc
      exact Mem.keep_cell hc
  cases a with
  | load r k => exact fun i hi => hin _ _ (h1.2 i hi)
  | store r k => exact fun i hi => hin _ _ (h1.2 i hi)

theorem noStale {x : Prog α} {L W : Nat → Prop} {R : α → Prop} {μ M fin : Mem} {known : Nat → Nat → Prop} (hs : Uses L W R x) (hm : Sub μ M)
    (h : (∃ a, x.run μ = .ok a fin) ∨ x.run μ = .err fin) (hk : ∀ b i, μ.cell b i ≠ none → known b i) :
    Spec.NoStale known (x.trace M) := by
  induction x generalizing μ M known with
  | pure a => trivial
  | err => trivial
  | panic => trivial
  | ub => trivial
  | load p n k ih =>
    simp only [Prog.run] at h
    cases hr : μ.read p n with
    | none => rw [hr] at h; rcases h with ⟨a, h⟩ | h <;> cases h
    | some bs =>
      rw [hr] at h
      simp only [Prog.trace, hm.read hr]
      exact ⟨fun i hi => hk _ _ (read_cells hr _ (by omega) (by omega)), ih bs (hs.2 bs) hm h hk⟩
  | store p bs k ih =>
    simp only [Prog.run] at h
    split at h
    · rename_i hb
      simp only [Prog.trace]
      rw [if_pos (Nat.le_trans hb (hm.size _))]
      refine ih hs.2 (hm.write p bs) h fun b i hc => ?_
      by_cases hi : b = p.buf ∧ p.off ≤ i ∧ i < p.off + bs.length
      · exact .inr hi
      · rw [Mem.write_cell_out (by omega)] at hc; exact .inl (hk b i hc)
    · rcases h with ⟨a, h⟩ | h <;> cases h
  | chk p k ih =>
    simp only [Prog.run] at h
    split at h
    · rename_i hb
      simp only [Prog.trace]
      rw [if_pos (Nat.le_trans hb (hm.size _))]
      exact ih hs hm h hk
    · rcases h with ⟨a, h⟩ | h <;> cases h
  | alloc n k ih => exact hs.elim

theorem staged {x : Prog α} {R : α → Prop} {m fin : Mem} {p q : Ptr} {n d : Nat} (hpq : p.buf ≠ q.buf)
    (hs : Uses (fun b => b = p.buf ∨ b = q.buf) (· = q.buf) R x)
    (h : (∃ a, x.run (m.keep p n) = .ok a fin) ∨ x.run (m.keep p n) = .err fin)
    (hf : ∀ b o, (∀ i, i < d → ¬ (b = q.buf ∧ o = q.off + i)) → fin.cell b o = (m.keep p n).cell b o) :
    Spec.Staged (x.trace m) p n q d := by
  refine ⟨noStale hs (m.keep_sub p n) h fun b i hc => Mem.keep_cell hc, fun a ha => ?_⟩
  have h1 := trace_fin hs (m.keep_sub p n) h a ha
  have hin : ∀ b i, fin.cell b i ≠ none → Spec.In p n b i ∨ Spec.In q d b i := by
    intro b i hc
    by_cases hq : Spec.In q d b i
    · exact .inr hq
    · rw [hf b i (by rintro j hj ⟨h1, h2⟩; exact hq ⟨h1, by omega, by omega⟩)] at hc
      exact .inl (Mem.keep_cell hc)
  cases a with
  | load r k => exact fun i hi => hin _ _ (h1.2 i hi)
  | store r k =>
    intro i hi
    rcases hin _ _ (h1.2 i hi) with h | h
    · exact absurd (h.1.symm.trans h1.1) hpq
    · exact h

/-! ### From the outcomes of C58–C60 -/

theorem noOverlap_of_ne {p q : Ptr} (h : p.buf ≠ q.buf) (a b : Nat) : Spec.NoOverlap p a q b := fun _ _ _ _ h' => h h'.1

theorem conf_wrote {x : Prog α} {R : α → Prop} {m : Mem} {p q : Ptr} {n d : Nat} {a : α} {ys : List Byte} (hpq : p.buf ≠ q.buf)
    (hs : Uses (· = p.buf) (· = q.buf) R x) (h : ∃ m', x.run (m.keep p n) = .ok a m' ∧ Spec.Wrote (m.keep p n) m' q ys) (hl : ys.length = d) :
    Spec.Confined (x.trace m) p n q d := by
  obtain ⟨m', h1, h2⟩ := h
  subst hl
  exact confined hpq hs (.inl ⟨a, h1⟩) h2.2.2.2
theorem conf_only {x : Prog α} {R : α → Prop} {m : Mem} {p q : Ptr} {n d : Nat} (hpq : p.buf ≠ q.buf)
    (hs : Uses (· = p.buf) (· = q.buf) R x) (h : ∃ m', x.run (m.keep p n) = .err m' ∧ Spec.OnlyChanged (m.keep p n) m' q d) :
    Spec.Confined (x.trace m) p n q d := by
  obtain ⟨m', h1, h2⟩ := h
  exact confined hpq hs (.inr h1) h2.2.2.2
theorem conf_same {x : Prog α} {R : α → Prop} {m : Mem} {p q : Ptr} {n : Nat} (hpq : p.buf ≠ q.buf)
    (hs : Uses (· = p.buf) (· = q.buf) R x) (h : x.run (m.keep p n) = .err (m.keep p n)) : Spec.Confined (x.trace m) p n q 0 :=
  confined hpq hs (.inr h) fun _ _ _ => rfl
theorem inpl_wrote {x : Prog α} {L W : Nat → Prop} {R : α → Prop} {m : Mem} {p : Ptr} {n : Nat} {a : α} {ys : List Byte}
    (hs : Uses L W R x) (h : ∃ m', x.run (m.keep p n) = .ok a m' ∧ Spec.Wrote (m.keep p n) m' p ys) (hl : ys.length ≤ n) :
    Spec.Confined (x.trace m) p n p n := by
  obtain ⟨m', h1, h2⟩ := h
  exact confined_inplace hs (.inl ⟨a, h1⟩) fun b o hb => h2.2.2.2 b o fun i hi => hb i (by omega)
theorem inpl_only {x : Prog α} {L W : Nat → Prop} {R : α → Prop} {m : Mem} {p : Ptr} {n d : Nat}
    (hs : Uses L W R x) (h : ∃ m', x.run (m.keep p n) = .err m' ∧ Spec.OnlyChanged (m.keep p n) m' p d) (hl : d ≤ n) :
    Spec.Confined (x.trace m) p n p n := by
  obtain ⟨m', h1, h2⟩ := h
  exact confined_inplace hs (.inr h1) fun b o hb => h2.2.2.2 b o fun i hi => hb i (by omega)

attribute [irreducible] Uses

/-- Follows the text of a program; the lemmas in the first list handle the functions it calls, those in the second list the calls
that return pointers. -/
syntax "uses" "[" term,* "]" "[" term,* "]" : tactic
macro_rules
  | `(tactic| uses [$ts,*] [$bs,*]) => do
    let alts ← ts.getElems.mapM fun t => `(Lean.Parser.Tactic.tacticSeq| ((with_reducible apply $t) <;> assumption))
    let balts ← bs.getElems.mapM fun t => `(Lean.Parser.Tactic.tacticSeq|
      ((with_reducible apply Uses.bind); ((with_reducible apply $t) <;> assumption); first | rintro ⟨_, _⟩ ⟨_, _⟩ | rintro ⟨_, _⟩ _))
    let pre ← #[``Uses.padd, ``Uses.liftO, ``Uses.liftR, ``Uses.ensure, ``Uses.assert, ``Uses.offset_from, ``Uses.tread, ``Uses.err, ``Uses.ub, ``Uses.panic,
      ``Uses.ret_true].mapM fun n => `(Lean.Parser.Tactic.tacticSeq| (with_reducible apply $(Lean.mkIdent n)))
    let mem ← #[``Uses.rd, ``Uses.loadBytes, ``Uses.wrt, ``Uses.storeBytes, ``Uses.v128_load, ``Uses.v128_store, ``Uses.v256_load,
        ``Uses.v256_store].mapM fun n => `(Lean.Parser.Tactic.tacticSeq| ((with_reducible apply $(Lean.mkIdent n)); assumption))
    let post : Array (Lean.TSyntax ``Lean.Parser.Tactic.tacticSeq) := #[
      ← `(Lean.Parser.Tactic.tacticSeq| ((with_reducible apply Uses.ret); first | assumption | exact And.intro (by assumption) (by assumption))),
      ← `(Lean.Parser.Tactic.tacticSeq| (with_reducible refine Uses.seq ?_ fun _ => ?_)),
      ← `(Lean.Parser.Tactic.tacticSeq| (with_reducible refine Uses.forFrom (fun _ => ?_) _ _)),
      ← `(Lean.Parser.Tactic.tacticSeq| (with_reducible refine Uses.foldFrom (fun _ _ => ?_) _ _ _)),
      ← `(Lean.Parser.Tactic.tacticSeq| dsimp only), ← `(Lean.Parser.Tactic.tacticSeq| split)]
    let all := pre ++ mem ++ balts ++ alts ++ post
    `(tactic| repeat' first $[| $all]*)

end Simd
