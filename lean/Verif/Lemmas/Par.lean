import Verif.Model.Parallel
import Verif.Lemmas.Run
/-
Tasks with disjoint outputs: every interleaving ends in the same memory.

Each task comes with a private memory in which only its input is initialised. As long as a task runs alone in its private
memory without undefined behaviour, it reads only its input and its own output; and an output cell once written never becomes
uninitialised again, so the cells written are those initialised at the end.
-/
namespace Simd

variable {α β : Type}

/-! ### Which buffer a program stores to -/

/-- All stores go to buffer `D`, there are no allocations, and results satisfy `R`. -/
def Stores (D : Nat) (R : α → Prop) : Prog α → Prop
  | .pure a => R a
  | .err => True
  | .panic => True
  | .ub => True
  | .load _ _ k => ∀ bs, Stores D R (k bs)
  | .store p _ k => p.buf = D ∧ Stores D R k
  | .chk _ k => Stores D R k
  | .alloc _ _ => False

namespace Stores
variable {D : Nat} {R : α → Prop} {S : β → Prop}

theorem bind' {x : Prog α} {f : α → Prog β} (h : Stores D R x) (hf : ∀ a, R a → Stores D S (f a)) : Stores D S (Prog.bind x f) := by
  induction x with
  | pure a => exact hf a h
  | err => trivial
  | panic => trivial
  | ub => trivial
  | load p n k ih => exact fun bs => ih bs (h bs)
  | store p bs k ih => exact ⟨h.1, ih h.2⟩
  | chk p k ih => exact ih h
  | alloc n k ih => exact h

theorem bind {x : Prog α} {f : α → Prog β} (h : Stores D R x) (hf : ∀ a, R a → Stores D S (f a)) : Stores D S (x >>= f) := bind' h hf

theorem pure {a : α} (h : R a) : Stores D R (pure a : Prog α) := h

/-- A program without stores. -/
theorem seq {x : Prog α} {f : α → Prog β} (h : Stores D (fun _ => True) x) (hf : ∀ a, Stores D S (f a)) : Stores D S (x >>= f) :=
  bind h fun a _ => hf a

theorem rd (p i) : Stores D (fun _ => True) (rd p i) := fun _ => trivial
theorem loadBytes (p n) : Stores D (fun _ => True) (loadBytes p n) := fun _ => trivial
theorem tread (t : List Byte) (i) : Stores D (fun _ => True) (tread t i) := by
  unfold Simd.tread; split <;> trivial
theorem padd (p n) : Stores D (fun _ => True) (padd p n) := trivial
theorem psub (p n) : Stores D (fun _ => True) (psub p n) := by unfold Simd.psub; split <;> trivial
theorem assert (b) : Stores D (fun _ => True) (assert b) := by cases b <;> trivial
theorem liftO (o : Option α) : Stores D (fun _ => True) (liftO o) := by cases o <;> trivial
theorem wrt {p : Ptr} (h : p.buf = D) (i x) : Stores D (fun _ => True) (wrt p i x) := ⟨h, trivial⟩
theorem storeBytes {p : Ptr} (h : p.buf = D) (bs) : Stores D (fun _ => True) (storeBytes p bs) := ⟨h, trivial⟩

theorem forFrom {f : Nat → Prog Unit} (h : ∀ i, Stores D (fun _ => True) (f i)) : ∀ n i, Stores D (fun _ => True) (forFrom f i n)
  | 0, _ => trivial
  | n + 1, i => seq (h i) fun _ => forFrom h n (i + 1)

theorem v128_load (s p) : Stores D (fun _ => True) (Vs.v128_load s p) := by
  unfold Vs.v128_load
  repeat' split
  all_goals first | exact seq (loadBytes _ _) fun _ => trivial | trivial
theorem v128_store {p : Ptr} (h : p.buf = D) (s x) : Stores D (fun _ => True) (Vs.v128_store s p x) := by
  unfold Vs.v128_store
  repeat' split
  all_goals first | exact storeBytes h _ | trivial
theorem v256_load (s p) : Stores D (fun _ => True) (Vs.v256_load s p) := by
  unfold Vs.v256_load
  repeat' split
  · exact seq (loadBytes _ _) fun _ => trivial
  · exact seq (loadBytes _ _) fun _ => trivial
  · exact seq (v128_load _ _) fun _ => seq (padd _ _) fun _ => seq (v128_load _ _) fun _ => trivial
theorem v256_store {p : Ptr} (h : p.buf = D) (s x) : Stores D (fun _ => True) (Vs.v256_store s p x) := by
  unfold Vs.v256_store
  repeat' split
  · exact storeBytes h _
  · exact storeBytes h _
  · exact seq (v128_store h _ _) fun _ => seq (padd _ _) fun _ => v128_store (p := p.add 16) h _ _

end Stores

/-! ### One task alone -/

/-- Number of accesses until the task returns. -/
def Prog.steps : Prog Unit → Mem → Nat
  | .pure _, _ => 0
  | .err, _ => 0
  | .panic, _ => 0
  | .ub, _ => 0
  | .load p n k, m =>
    match m.read p n with
    | some bs => (k bs).steps m + 1
    | none => 0
  | .store p bs k, m => k.steps (m.write p bs) + 1
  | .chk _ k, m => k.steps m + 1
  | .alloc n k, m => (k m.nbuf).steps (m.alloc n) + 1

/-- Initialised cells stay initialised. -/
theorem run_init {D : Nat} {x : Prog Unit} {m m' : Mem} {a} (hs : Stores D (fun _ => True) x) (h : x.run m = .ok a m') :
    ∀ b i, m.cell b i ≠ none → m'.cell b i ≠ none := by
  induction x generalizing m with
  | pure a => cases h; exact fun _ _ h => h
  | err => cases h
  | panic => cases h
  | ub => cases h
  | load p n k ih =>
    simp only [Prog.run] at h
    cases hr : m.read p n with
    | none => rw [hr] at h; cases h
    | some bs => rw [hr] at h; exact ih bs (hs bs) h
  | store p bs k ih =>
    simp only [Prog.run] at h
    split at h
    · intro b i hc
      refine ih hs.2 h b i ?_
      by_cases hi : b = p.buf ∧ p.off ≤ i ∧ i < p.off + bs.length
      · rw [Mem.write_cell_in hi.1 hi.2.1 hi.2.2, List.getElem?_eq_getElem (by omega)]; simp
      · rw [Mem.write_cell_out (by omega)]; exact hc
    · cases h
  | chk p k ih =>
    simp only [Prog.run] at h
    split at h
    · exact ih hs h
    · cases h
  | alloc n k ih => exact hs.elim

/-- One step of a task in its private memory `μ`, seen in any memory `M` that contains `μ`. -/
structure Sub (μ M : Mem) : Prop where
  size : ∀ b, μ.size b ≤ M.size b
  cell : ∀ b i v, μ.cell b i = some v → M.cell b i = some v

theorem Sub.read {μ M : Mem} (h : Sub μ M) {p n bs} (hr : μ.read p n = some bs) : M.read p n = some bs := by
  unfold Mem.read at hr
  split at hr
  · rename_i hs
    obtain ⟨hl, hc⟩ := of_readFrom hr
    have hb : HasBytes M p bs := ⟨by have := h.size p.buf; omega, fun i hi => h.cell _ _ _ (hc i hi)⟩
    exact hb.read' hl
  · cases hr

theorem Sub.write {μ M : Mem} (h : Sub μ M) (p bs) : Sub (μ.write p bs) (M.write p bs) where
  size := h.size
  cell := fun b i v hv => by
    by_cases hi : b = p.buf ∧ p.off ≤ i ∧ i < p.off + bs.length
    · rw [Mem.write_cell_in hi.1 hi.2.1 hi.2.2] at hv ⊢; exact hv
    · rw [Mem.write_cell_out (by omega)] at hv ⊢; exact h.cell b i v hv

theorem read_cells {μ : Mem} {p n bs} (hr : μ.read p n = some bs) : ∀ i, p.off ≤ i → i < p.off + n → μ.cell p.buf i ≠ none := by
  unfold Mem.read at hr
  split at hr
  · obtain ⟨hl, hc⟩ := of_readFrom hr
    intro i h1 h2
    have := hc (i - p.off) (by omega)
    rw [show p.off + (i - p.off) = i by omega] at this
    rw [this]; simp
  · cases hr

/-- What the next access of a task does. -/
theorem step_sub {D : Nat} {x : Prog Unit} {μ M fin : Mem} (hs : Stores D (fun _ => True) x) (h : x.run μ = .ok () fin) (hm : Sub μ M)
    (hf : x.finished = false) :
    (∃ x' μ' M', x.step M = some (x', M') ∧ Stores D (fun _ => True) x' ∧ x'.run μ' = .ok () fin ∧ Sub μ' M' ∧
      x.steps μ = x'.steps μ' + 1 ∧ M'.size = M.size ∧ M'.nbuf = M.nbuf ∧
      ∀ b i, M'.cell b i ≠ M.cell b i → b = D ∧ x.writes b i) := by
  cases x with
  | pure a => cases hf
  | err => cases h
  | panic => cases h
  | ub => cases h
  | load p n k =>
    simp only [Prog.run] at h
    cases hr : μ.read p n with
    | none => rw [hr] at h; cases h
    | some bs =>
      rw [hr] at h
      refine ⟨k bs, μ, M, ?_, hs bs, h, hm, ?_, rfl, rfl, fun b i hne => absurd rfl hne⟩
      · simp only [Prog.step, hm.read hr]
      · simp only [Prog.steps, hr]
  | store p bs k =>
    simp only [Prog.run] at h
    split at h
    · rename_i hb
      refine ⟨k, μ.write p bs, M.write p bs, ?_, hs.2, h, hm.write p bs, rfl, rfl, rfl, ?_⟩
      · simp only [Prog.step]
        rw [if_pos (Nat.le_trans hb (hm.size _))]
      · intro b i hne
        by_cases hi : b = p.buf ∧ p.off ≤ i ∧ i < p.off + bs.length
        · exact ⟨hi.1.trans hs.1, hi⟩
        · exact absurd (Mem.write_cell_out (by omega)) hne
    · cases h
  | chk p k =>
    simp only [Prog.run] at h
    split at h
    · rename_i hb
      refine ⟨k, μ, M, ?_, hs, h, hm, rfl, rfl, rfl, fun b i hne => absurd rfl hne⟩
      simp only [Prog.step]
      rw [if_pos (Nat.le_trans hb (hm.size _))]
    · cases h
  | alloc n k => exact hs.elim

/-- Cells about to be written are initialised at the end. -/
theorem writes_fin {D : Nat} {x : Prog Unit} {μ fin : Mem} (hs : Stores D (fun _ => True) x) (h : x.run μ = .ok () fin) {b i}
    (hw : x.writes b i) : b = D ∧ fin.cell b i ≠ none := by
  cases x with
  | store p bs k =>
    simp only [Prog.run] at h
    split at h
    · refine ⟨hw.1.trans hs.1, run_init hs.2 h b i ?_⟩
      rw [Mem.write_cell_in hw.1 hw.2.1 hw.2.2]
      have := hw.2
      rw [List.getElem?_eq_getElem (by omega)]; simp
    · cases h
  | _ => exact hw.elim

/-- Cells about to be accessed are initialised at the end. -/
theorem touches_fin {D : Nat} {x : Prog Unit} {μ fin : Mem} (hs : Stores D (fun _ => True) x) (h : x.run μ = .ok () fin) {b i}
    (hw : x.touches b i) : fin.cell b i ≠ none := by
  cases x with
  | load p n k =>
    have h' := h
    simp only [Prog.run] at h
    cases hr : μ.read p n with
    | none => rw [hr] at h; cases h
    | some bs =>
      refine run_init hs h' b i ?_
      rw [hw.1]
      exact read_cells hr i hw.2.1 hw.2.2
  | store p bs k => exact (writes_fin hs h (b := b) (i := i) hw).2
  | _ => exact hw.elim

/-! ### All tasks together -/

theorem sum_set (l : List Nat) (t : Nat) (h : t < l.length) (a : Nat) : (l.set t a).sum + l[t] = l.sum + a := by
  induction l generalizing t with
  | nil => simp at h
  | cons x l ih =>
    cases t with
    | zero => simp; omega
    | succ t =>
      have := ih t (by simpa using h)
      simp only [List.set_cons_succ, List.sum_cons, List.getElem_cons_succ]; omega

/-- The claims about a pool. `gs` pairs each task with its private memory, `fins` are their final private memories. -/
structure PoolInv (D : Nat) (M0 : Mem) (fins : List Mem) (gs : List (Prog Unit × Mem)) (M : Mem) : Prop where
  len : gs.length = fins.length
  stores : ∀ t, (h : t < gs.length) → Stores D (fun _ => True) gs[t].1
  run : ∀ t, (h : t < gs.length) → gs[t].1.run gs[t].2 = .ok () fins[t]
  sub : ∀ t, (h : t < gs.length) → Sub gs[t].2 M
  size : M.size = M0.size
  nbuf : M.nbuf = M0.nbuf
  other : ∀ b i, (b ≠ D ∨ ∀ t, (h : t < fins.length) → fins[t].cell b i = none) → M.cell b i = M0.cell b i

def measure (gs : List (Prog Unit × Mem)) : Nat := (gs.map fun g => g.1.steps g.2).sum

/-- Outputs of different tasks do not overlap. -/
def Disjoint' (D : Nat) (fins : List Mem) : Prop :=
  ∀ t u, (ht : t < fins.length) → (hu : u < fins.length) → t ≠ u → ∀ i, fins[t].cell D i ≠ none → fins[u].cell D i = none

theorem PoolInv.step {D M0 fins gs M} (hI : PoolInv D M0 fins gs M) (hd : Disjoint' D fins) {c : Pool}
    (h : Pool.Step (.run (gs.map (·.1)) M) c) :
    ∃ gs' M', c = .run (gs'.map (·.1)) M' ∧ PoolInv D M0 fins gs' M' ∧ measure gs = measure gs' + 1 := by
  cases h with
  | ok t ht hf hst =>
    rename_i x m'
    have hg : t < gs.length := by simpa using ht
    rw [List.getElem_map] at hf hst
    obtain ⟨x', μ', M', h1, h2, h3, h4, h5, h6, h7, h8⟩ := step_sub (hI.stores t hg) (hI.run t hg) (hI.sub t hg) hf
    rw [h1] at hst; cases hst
    have hfin := fun b i hne => writes_fin (hI.stores t hg) (hI.run t hg) (h8 b i hne).2
    refine ⟨gs.set t (x, μ'), m', by rw [List.map_set], ⟨by simpa using hI.len, ?_, ?_, ?_, h6.trans hI.size, h7.trans hI.nbuf, ?_⟩, ?_⟩
    · intro u hu
      by_cases hut : u = t
      · subst hut; rw [List.getElem_set_self]; exact h2
      · rw [List.getElem_set_ne (Ne.symm hut)]; exact hI.stores u (by simpa using hu)
    · intro u hu
      by_cases hut : u = t
      · subst hut; simp only [List.getElem_set_self]; exact h3
      · simp only [List.getElem_set_ne (Ne.symm hut)]; exact hI.run u (by simpa using hu)
    · intro u hu
      have hu' : u < gs.length := by simpa using hu
      by_cases hut : u = t
      · subst hut; simp only [List.getElem_set_self]; exact h4
      · rw [List.getElem_set_ne (Ne.symm hut)]
        have hsu := hI.sub u hu'
        refine ⟨fun b => by rw [h6]; exact hsu.size b, fun b i v hv => ?_⟩
        have hMv := hsu.cell b i v hv
        by_cases hne : m'.cell b i = M.cell b i
        · rw [hne]; exact hMv
        · exfalso
          obtain ⟨rfl, h9⟩ := hfin b i hne
          have h10 := hd t u (by rw [← hI.len]; exact hg) (by rw [← hI.len]; exact hu') (Ne.symm hut) i h9
          exact run_init (hI.stores u hu') (hI.run u hu') b i (by rw [hv]; simp) h10
    · intro b i hbi
      by_cases hne : m'.cell b i = M.cell b i
      · rw [hne]; exact hI.other b i hbi
      · exfalso
        obtain ⟨rfl, h9⟩ := hfin b i hne
        rcases hbi with hbi | hbi
        · exact hbi rfl
        · exact h9 (hbi t (by rw [← hI.len]; exact hg))
    · unfold measure
      rw [List.map_set]
      have := sum_set (gs.map fun g => g.1.steps g.2) t (by simpa using hg) (x.steps μ')
      rw [List.getElem_map] at this
      simp only at this h5 ⊢
      omega
  | fail t ht hf hst =>
    exfalso
    have hg : t < gs.length := by simpa using ht
    rw [List.getElem_map] at hf hst
    obtain ⟨x', μ', M', h1, -⟩ := step_sub (hI.stores t hg) (hI.run t hg) (hI.sub t hg) hf
    rw [h1] at hst; cases hst
  | race t u ht hu hne hr =>
    exfalso
    have hg : t < gs.length := by simpa using ht
    have hg' : u < gs.length := by simpa using hu
    obtain ⟨b, i, hw, hto⟩ := hr
    rw [List.getElem_map] at hw hto
    obtain ⟨rfl, h1⟩ := writes_fin (hI.stores t hg) (hI.run t hg) hw
    exact touches_fin (hI.stores u hg') (hI.run u hg') hto (hd t u (by rw [← hI.len]; exact hg) (by rw [← hI.len]; exact hg') hne i h1)

theorem PoolInv.steps {D M0 fins gs} (hI : PoolInv D M0 fins gs M0) (hd : Disjoint' D fins) {n c}
    (h : Pool.Steps n (.run (gs.map (·.1)) M0) c) :
    ∃ gs' M', c = .run (gs'.map (·.1)) M' ∧ PoolInv D M0 fins gs' M' ∧ measure gs = measure gs' + n := by
  generalize hc0 : Pool.run (gs.map (·.1)) M0 = c0 at h
  induction h with
  | refl => exact ⟨gs, M0, hc0.symm, hI, by omega⟩
  | tail _ hs ih =>
    obtain ⟨gs1, M1, rfl, hI1, hm1⟩ := ih hc0
    obtain ⟨gs2, M2, rfl, hI2, hm2⟩ := hI1.step hd hs
    exact ⟨gs2, M2, rfl, hI2, by omega⟩

/-- A pool in which not all tasks have returned can make a step. -/
theorem PoolInv.progress {D M0 fins gs M} (hI : PoolInv D M0 fins gs M) :
    (∀ t, (h : t < gs.length) → gs[t].1.finished = true) ∨ ∃ c, Pool.Step (.run (gs.map (·.1)) M) c := by
  by_cases h : ∀ t, (h : t < gs.length) → gs[t].1.finished = true
  · exact .inl h
  · right
    obtain ⟨t, h⟩ := Classical.not_forall.1 h
    obtain ⟨ht, hf⟩ := Classical.not_forall.1 h
    obtain ⟨x', μ', M', h1, -⟩ := step_sub (hI.stores t ht) (hI.run t ht) (hI.sub t ht) (by simpa using hf)
    exact ⟨_, .ok t (by simpa using ht) (by rw [List.getElem_map]; simpa using hf) (by rw [List.getElem_map]; exact h1)⟩

/-- When all tasks have returned, the memory holds all their outputs. -/
theorem PoolInv.final {D M0 fins gs M} (hI : PoolInv D M0 fins gs M) (h : ∀ t, (h : t < gs.length) → gs[t].1.finished = true) :
    ∀ t, (h : t < fins.length) → Sub fins[t] M := by
  intro t ht
  have hg : t < gs.length := by rw [hI.len]; exact ht
  have hf := h t hg
  have hr := hI.run t hg
  have hs := hI.sub t hg
  cases hx : gs[t].1 <;> rw [hx] at hf hr <;> first | (cases hf; done) | skip
  injection hr with _ hr
  rw [hr] at hs; exact hs

/-! ### Consecutive outputs -/

/-- Outputs (offset, bytes) that follow each other from offset `o`. -/
def Contig (o : Nat) : List (Nat × List Byte) → Prop
  | [] => True
  | q :: qs => q.1 = o ∧ Contig (o + q.2.length) qs

def allBytes (qs : List (Nat × List Byte)) : List Byte := qs.flatMap (·.2)

theorem Contig.bounds {qs : List (Nat × List Byte)} {o t : Nat} (h : Contig o qs) (ht : t < qs.length) :
    o ≤ qs[t].1 ∧ qs[t].1 + qs[t].2.length ≤ o + (allBytes qs).length := by
  induction qs generalizing o t with
  | nil => simp at ht
  | cons q qs ih =>
    simp only [allBytes, List.flatMap_cons, List.length_append]
    cases t with
    | zero => simp only [List.getElem_cons_zero]; have := h.1; omega
    | succ t =>
      have := ih h.2 (t := t) (by simpa using ht)
      simp only [allBytes, List.getElem_cons_succ] at *
      omega

theorem Contig.disjoint {qs : List (Nat × List Byte)} {o t u : Nat} (h : Contig o qs) (ht : t < qs.length) (hu : u < qs.length) (htu : t < u) :
    qs[t].1 + qs[t].2.length ≤ qs[u].1 := by
  induction qs generalizing o t u with
  | nil => simp at ht
  | cons q qs ih =>
    cases u with
    | zero => omega
    | succ u =>
      cases t with
      | zero =>
        have := (h.2.bounds (t := u) (by simpa using hu)).1
        simp only [List.getElem_cons_zero, List.getElem_cons_succ]
        have := h.1
        omega
      | succ t => exact ih h.2 (by simpa using ht) (by simpa using hu) (by omega)

/-- Which output covers an offset. -/
theorem Contig.find {qs : List (Nat × List Byte)} {o i : Nat} (h : Contig o qs) (h1 : o ≤ i) (h2 : i < o + (allBytes qs).length) :
    ∃ t, ∃ ht : t < qs.length, qs[t].1 ≤ i ∧ i < qs[t].1 + qs[t].2.length ∧ (allBytes qs)[i - o]? = qs[t].2[i - qs[t].1]? := by
  induction qs generalizing o with
  | nil => simp [allBytes] at h2; omega
  | cons q qs ih =>
    have hq := h.1
    by_cases hi : i < o + q.2.length
    · refine ⟨0, by simp, by simp; omega, by simp; omega, ?_⟩
      simp only [allBytes, List.flatMap_cons, List.getElem_cons_zero]
      rw [List.getElem?_append_left (by omega), hq]
    · simp only [allBytes, List.flatMap_cons, List.length_append] at h2
      obtain ⟨t, ht, h3, h4, h5⟩ := ih h.2 (by omega) (by simp only [allBytes]; omega)
      refine ⟨t + 1, by simpa using ht, h3, h4, ?_⟩
      simp only [allBytes, List.flatMap_cons, List.getElem_cons_succ] at h5 ⊢
      rw [List.getElem?_append_right (by omega), ← h5]
      congr 1; omega

/-- Task `x` writes the bytes `q.2` at offset `q.1` of buffer `D`, reading nothing else in it but the cells in `S`. -/
def TaskOk (D : Nat) (M0 : Mem) (x : Prog Unit) (q : Nat × List Byte) (S : Nat → Prop) : Prop :=
  Stores D (fun _ => True) x ∧ ∃ μ, Sub μ M0 ∧ (∀ i, μ.cell D i ≠ none → S i) ∧ x.run μ = .ok () (μ.write ⟨D, q.1⟩ q.2)

theorem TaskOk.mono {D M0 x q} {S S' : Nat → Prop} (h : TaskOk D M0 x q S) (hS : ∀ i, S i → S' i) : TaskOk D M0 x q S' := by
  obtain ⟨h1, μ, h2, h3, h4⟩ := h
  exact ⟨h1, μ, h2, fun i hi => hS i (h3 i hi), h4⟩

/-- Tasks with consecutive outputs: no schedule goes wrong or runs forever, none gets stuck, and all end in the same memory. -/
theorem par_spec {D : Nat} {M0 : Mem} {ts : List (Prog Unit)} {qs : List (Nat × List Byte)} {o : Nat} (hl : ts.length = qs.length)
    (hq : Contig o qs) {S : Nat → Nat → Prop} (hok : ∀ t, (h : t < ts.length) → TaskOk D M0 ts[t] qs[t] (S t))
    (hS : ∀ t u i, t ≠ u → S t i → ¬ S u i) (hSq : ∀ t i, S t i → ¬ (o ≤ i ∧ i < o + (allBytes qs).length)) :
    ∃ N, ∀ n c, Pool.Steps n (.run ts M0) c → n ≤ N ∧ c ≠ .bad ∧ ((∃ c', Pool.Step c c') ∨ c.Done (M0.write ⟨D, o⟩ (allBytes qs))) ∧
      ∀ m', c.Done m' → m' = M0.write ⟨D, o⟩ (allBytes qs) := by
  have hex : ∀ t : Fin ts.length, ∃ μ, Sub μ M0 ∧ (∀ i, μ.cell D i ≠ none → S t i) ∧ ts[t].run μ = .ok () (μ.write ⟨D, qs[t].1⟩ qs[t].2) :=
    fun t => (hok t t.2).2
  obtain ⟨μ, hμ⟩ := Classical.axiomOfChoice hex
  let gs : List (Prog Unit × Mem) := List.ofFn fun t : Fin ts.length => (ts[t], μ t)
  let fins : List Mem := List.ofFn fun t : Fin ts.length => (μ t).write ⟨D, qs[t].1⟩ qs[t].2
  have hgs : gs.map (·.1) = ts := by
    apply List.ext_getElem (by simp [gs])
    intro i h1 h2
    simp [gs]
  have hglen : gs.length = ts.length := by simp [gs]
  have hflen : fins.length = ts.length := by simp [fins]
  have hI : PoolInv D M0 fins gs M0 := by
    refine ⟨by simp [gs, fins], ?_, ?_, ?_, rfl, rfl, fun _ _ _ => rfl⟩
    · intro t h
      simp only [gs, List.getElem_ofFn]
      exact (hok t (by omega)).1
    · intro t h
      simp only [gs, fins, List.getElem_ofFn]
      exact (hμ ⟨t, by omega⟩).2.2
    · intro t h
      simp only [gs, List.getElem_ofFn]
      exact (hμ ⟨t, by omega⟩).1
  have hcell : ∀ t (h : t < ts.length) i, fins[t].cell D i = if qs[t].1 ≤ i ∧ i < qs[t].1 + qs[t].2.length then qs[t].2[i - qs[t].1]? else
      (μ ⟨t, h⟩).cell D i := by
    intro t h i
    simp only [fins, List.getElem_ofFn]
    split
    · rename_i hi; exact Mem.write_cell_in rfl hi.1 hi.2
    · rename_i hi
      refine Mem.write_cell_out ?_
      simp only [Fin.getElem_fin]; omega
  have hin : ∀ t (h : t < ts.length) i, fins[t].cell D i ≠ none → (qs[t].1 ≤ i ∧ i < qs[t].1 + qs[t].2.length) ∨ S t i := by
    intro t h i hne
    rw [hcell t h] at hne
    split at hne
    · exact .inl (by assumption)
    · exact .inr ((hμ ⟨t, h⟩).2.1 i hne)
  have hd : Disjoint' D fins := by
    intro t u ht hu hne i h1
    have ht' : t < ts.length := by omega
    have hu' : u < ts.length := by omega
    have bt := hq.bounds (t := t) (by omega)
    have bu := hq.bounds (t := u) (by omega)
    by_contra h2
    rcases hin t ht' i h1 with h3 | h3 <;> rcases hin u hu' i h2 with h4 | h4
    · rcases Nat.lt_or_gt_of_ne hne with h | h
      · have := hq.disjoint (t := t) (u := u) (by omega) (by omega) h; omega
      · have := hq.disjoint (t := u) (u := t) (by omega) (by omega) h; omega
    · exact hSq u i h4 ⟨by omega, by omega⟩
    · exact hSq t i h3 ⟨by omega, by omega⟩
    · exact hS t u i hne h3 h4
  have hdone : ∀ {gs' M'}, PoolInv D M0 fins gs' M' → (∀ t, (h : t < gs'.length) → gs'[t].1.finished = true) →
      M' = M0.write ⟨D, o⟩ (allBytes qs) := by
    intro gs' M' hI' hf
    have hsub := hI'.final hf
    refine Mem.ext' hI'.nbuf hI'.size fun b i => ?_
    by_cases hi : b = D ∧ o ≤ i ∧ i < o + (allBytes qs).length
    · obtain ⟨rfl, h1, h2⟩ := hi
      obtain ⟨t, ht, h3, h4, h5⟩ := hq.find h1 h2
      rw [Mem.write_cell_in rfl h1 h2, h5]
      have hg : i - qs[t].1 < qs[t].2.length := by omega
      rw [List.getElem?_eq_getElem hg]
      refine (hsub t (by omega)).cell b i _ ?_
      rw [hcell t (by omega), if_pos ⟨h3, h4⟩, List.getElem?_eq_getElem hg]
    · rw [Mem.write_cell_out (by simp only; omega)]
      by_cases hb : b = D
      · subst hb
        by_cases hall : ∀ t, (h : t < fins.length) → fins[t].cell b i = none
        · exact hI'.other b i (.inr hall)
        · obtain ⟨t, hall⟩ := Classical.not_forall.1 hall
          obtain ⟨ht, hne⟩ := Classical.not_forall.1 hall
          have ht' : t < ts.length := hflen ▸ ht
          have hq' : t < qs.length := hl ▸ ht'
          have hb := hq.bounds hq'
          have hout : ¬ (qs[t].1 ≤ i ∧ i < qs[t].1 + qs[t].2.length) :=
            fun h => hi ⟨rfl, Nat.le_trans hb.1 h.1, Nat.lt_of_lt_of_le h.2 hb.2⟩
          have hc := hcell t ht' i
          rw [if_neg hout] at hc
          obtain ⟨v, hv⟩ := Option.ne_none_iff_exists'.1 hne
          rw [(hsub t ht).cell b i v hv]
          rw [hv] at hc
          exact ((hμ ⟨t, ht'⟩).1.cell b i v hc.symm).symm
      · exact hI'.other b i (.inl hb)
  refine ⟨measure gs, fun n c hs => ?_⟩
  rw [← hgs] at hs
  obtain ⟨gs', M', rfl, hI', hm⟩ := hI.steps hd hs
  refine ⟨by omega, (fun h => by cases h), ?_, ?_⟩
  · rcases hI'.progress with h | h
    · right
      refine ⟨_, by rw [hdone hI' h], fun x hx => ?_⟩
      obtain ⟨t, ht, rfl⟩ := List.getElem_of_mem hx
      rw [List.getElem_map]
      exact h t (by simpa using ht)
    · exact .inl h
  · rintro m' ⟨ts', h1, h2⟩
    cases h1
    refine hdone hI' fun t ht => ?_
    exact h2 _ (List.mem_map_of_mem (List.getElem_mem ht))

end Simd
