import Verif.Lemmas.Ren
/-
From different allocations to slices anywhere: what is known about the accesses of a function whose source and destination are in allocations 0 and 1 holds for any two
slices that have no byte in common.
-/
namespace Simd

variable {α : Type}

/-- Allocation 0 is renamed to `b`, all others to `c`. -/
def two (b c : Nat) (k : Nat) : Nat := if k = 0 then b else c

/-- The memory in which allocation `k` is what allocation `ρ k` is in `M`. -/
def Mem.pull (M : Mem) (ρ : Nat → Nat) : Mem := ⟨2, fun b => M.size (ρ b), fun b i => M.cell (ρ b) i⟩

theorem Mem.pull_reads {M : Mem} {p : Ptr} {c : Nat} {xs : List Byte} (h : Spec.Reads M p xs) : Spec.Reads (M.pull (two p.buf c)) ⟨0, p.off⟩ xs := h
theorem Mem.pull_writable {M : Mem} {q : Ptr} {b d : Nat} (h : Spec.Writable M q d) : Spec.Writable (M.pull (two b q.buf)) ⟨1, q.off⟩ d := h

theorem ok_ne {o : Out α} {a : α} {Q : Mem → Prop} (h : ∃ m', o = .ok a m' ∧ Q m') : o ≠ .ub := by
  obtain ⟨m', rfl, -⟩ := h; exact fun h => nomatch h
theorem err_ne {o : Out α} {Q : Mem → Prop} (h : ∃ m', o = .err m' ∧ Q m') : o ≠ .ub := by
  obtain ⟨m', rfl, -⟩ := h; exact fun h => nomatch h
theorem ok_ne' {o : Out α} {a : α} {m' : Mem} (h : o = .ok a m') : o ≠ .ub := by
  rw [h]; exact fun h => nomatch h
theorem err_ne' {o : Out α} {m' : Mem} (h : o = .err m') : o ≠ .ub := by
  rw [h]; exact fun h => nomatch h

theorem in_cover {p q : Ptr} {n k : Nat} (h : ∀ i, i < k → Spec.In p n q.buf (q.off + i)) : ∀ b i, Spec.In q k b i → Spec.In p n b i := by
  rintro b i ⟨rfl, h1, h2⟩
  have := h (i - q.off) (by omega)
  rwa [show q.off + (i - q.off) = i by omega] at this

theorem in_mono {p : Ptr} {n k : Nat} (h : n ≤ k) {b i} (hi : Spec.In p n b i) : Spec.In p k b i := ⟨hi.1, hi.2.1, by have := hi.2.2; omega⟩

theorem Spec.NoOverlap.symm {p q : Ptr} {a b : Nat} (h : Spec.NoOverlap p a q b) : Spec.NoOverlap q b p a := fun i j hi hj e => h j i hj hi ⟨e.1.symm, e.2.symm⟩

/-- No two bytes of the two slices coincide after renaming. -/
theorem two_inj {p q : Ptr} {n d : Nat} (ho : Spec.NoOverlap p n q d) (b b' i : Nat)
    (h : Spec.In ⟨0, p.off⟩ n b i ∨ Spec.In ⟨1, q.off⟩ d b i) (h' : Spec.In ⟨0, p.off⟩ n b' i ∨ Spec.In ⟨1, q.off⟩ d b' i)
    (e : two p.buf q.buf b = two p.buf q.buf b') : b = b' := by
  rcases h with ⟨rfl, h1, h2⟩ | ⟨rfl, h1, h2⟩ <;> rcases h' with ⟨rfl, h3, h4⟩ | ⟨rfl, h3, h4⟩
  · rfl
  · dsimp only at h1 h2 h3 h4 e
    exact absurd ⟨e, by omega⟩ (ho (i - p.off) (i - q.off) (by omega) (by omega))
  · dsimp only at h1 h2 h3 h4 e
    exact absurd ⟨e.symm, by omega⟩ (ho (i - p.off) (i - q.off) (by omega) (by omega))
  · rfl

theorem trace_any {R : α → α → Prop} {x y : Prog α} {M : Mem} {p q : Ptr} {n d : Nat} (ho : Spec.NoOverlap p n q d) (h : Ren (two p.buf q.buf) R x y)
    (hn : NoAlloc x) (hx : x.run (M.pull (two p.buf q.buf)) ≠ .ub) (hy : y.run M ≠ .ub)
    (ht : Inside (fun b i => Spec.In ⟨0, p.off⟩ n b i ∨ Spec.In ⟨1, q.off⟩ d b i) (fun b i => Spec.In ⟨0, p.off⟩ n b i ∨ Spec.In ⟨1, q.off⟩ d b i)
      (x.trace (M.pull (two p.buf q.buf)))) :
    y.trace M = (x.trace (M.pull (two p.buf q.buf))).map (Access.ren (two p.buf q.buf)) :=
  h.trace (two_inj ho) (fun _ => rfl) (fun _ _ _ => rfl) ht hn hx hy

theorem two_in0 {p q : Ptr} {n b i : Nat} : Spec.In ⟨0, p.off⟩ n b i → Spec.In p n (two p.buf q.buf b) i := by
  rintro ⟨rfl, h1, h2⟩; exact ⟨rfl, h1, h2⟩
theorem two_in1 {p q : Ptr} {d b i : Nat} : Spec.In ⟨1, q.off⟩ d b i → Spec.In q d (two p.buf q.buf b) i := by
  rintro ⟨rfl, h1, h2⟩; exact ⟨rfl, h1, h2⟩

/-- A function whose loads are in the source and whose stores are in the destination if they are in different allocations. -/
theorem confined_any {R : (Nat → Nat) → α → α → Prop} {xs : List Byte} {d D : Nat} (f : Ptr → Ptr → Prog α)
    (hren : ∀ ρ o o', Ren ρ (R ρ) (f ⟨0, o⟩ ⟨1, o'⟩) (f ⟨ρ 0, o⟩ ⟨ρ 1, o'⟩))
    (hna : ∀ o o', NoAlloc (f ⟨0, o⟩ ⟨1, o'⟩))
    (hsafe : ∀ m p q, Spec.Reads m p xs → Spec.Writable m q d → Spec.NoOverlap p xs.length q d → (f p q).run m ≠ .ub)
    (hapart : ∀ m p q, p.buf ≠ q.buf → Spec.Reads m p xs → Spec.Writable m q d → Spec.Confined ((f p q).trace m) p xs.length q D) (hD : D ≤ d)
    {M : Mem} {p q : Ptr} (hr : Spec.Reads M p xs) (hw : Spec.Writable M q d) (ho : Spec.NoOverlap p xs.length q d) :
    Spec.Confined ((f p q).trace M) p xs.length q D := by
  have h1 := hapart _ ⟨0, p.off⟩ ⟨1, q.off⟩ Nat.zero_ne_one (Mem.pull_reads (c := q.buf) hr) (Mem.pull_writable hw)
  have h2 := hsafe _ ⟨0, p.off⟩ ⟨1, q.off⟩ (Mem.pull_reads (c := q.buf) hr) (Mem.pull_writable hw) (fun i j _ _ h => absurd h.1 Nat.zero_ne_one)
  have h3 := trace_any ho (hren (two p.buf q.buf) p.off q.off) (hna _ _) h2 (hsafe M p q hr hw ho) fun a ha => by
    have := h1 a ha
    cases a with
    | load r k => exact fun b i hi => .inl (in_cover this b i hi)
    | store r k => exact fun b i hi => .inr (in_mono hD (in_cover this b i hi))
  rw [show (f p q).trace M = (f ⟨two p.buf q.buf 0, p.off⟩ ⟨two p.buf q.buf 1, q.off⟩).trace M from rfl, h3]
  intro a ha
  obtain ⟨a, ha', rfl⟩ := List.mem_map.1 ha
  have := h1 a ha'
  cases a with
  | load r k => exact fun i hi => two_in0 (this i hi)
  | store r k => exact fun i hi => two_in1 (this i hi)

theorem noStale_ren {p q : Ptr} : ∀ (t : List Access) (known known' : Nat → Nat → Prop),
    (∀ b i, known b i → known' (two p.buf q.buf b) i) → Spec.NoStale known t → Spec.NoStale known' (t.map (Access.ren (two p.buf q.buf)))
  | [], _, _, _, _ => trivial
  | .load r k :: t, _, _, hk, h => ⟨fun i hi => hk _ _ (h.1 i hi), noStale_ren t _ _ hk h.2⟩
  | .store r k :: t, _, _, hk, h => noStale_ren t _ _ (fun b i => by
      rintro (h | ⟨rfl, h1, h2⟩)
      · exact .inl (hk b i h)
      · exact .inr ⟨rfl, h1, h2⟩) h

/-- The same for functions that read back what they have stored. -/
theorem staged_any {R : (Nat → Nat) → α → α → Prop} {xs : List Byte} {d D : Nat} (f : Ptr → Ptr → Prog α)
    (hren : ∀ ρ o o', Ren ρ (R ρ) (f ⟨0, o⟩ ⟨1, o'⟩) (f ⟨ρ 0, o⟩ ⟨ρ 1, o'⟩))
    (hna : ∀ o o', NoAlloc (f ⟨0, o⟩ ⟨1, o'⟩))
    (hsafe : ∀ m p q, Spec.Reads m p xs → Spec.Writable m q d → Spec.NoOverlap p xs.length q d → (f p q).run m ≠ .ub)
    (hapart : ∀ m p q, p.buf ≠ q.buf → Spec.Reads m p xs → Spec.Writable m q d → Spec.Staged ((f p q).trace m) p xs.length q D) (hD : D ≤ d)
    {M : Mem} {p q : Ptr} (hr : Spec.Reads M p xs) (hw : Spec.Writable M q d) (ho : Spec.NoOverlap p xs.length q d) :
    Spec.Staged ((f p q).trace M) p xs.length q D := by
  have h1 := hapart _ ⟨0, p.off⟩ ⟨1, q.off⟩ Nat.zero_ne_one (Mem.pull_reads (c := q.buf) hr) (Mem.pull_writable hw)
  have h2 := hsafe _ ⟨0, p.off⟩ ⟨1, q.off⟩ (Mem.pull_reads (c := q.buf) hr) (Mem.pull_writable hw) (fun i j _ _ h => absurd h.1 Nat.zero_ne_one)
  have h3 := trace_any ho (hren (two p.buf q.buf) p.off q.off) (hna _ _) h2 (hsafe M p q hr hw ho) fun a ha => by
    have := h1.2 a ha
    cases a with
    | load r k =>
      rintro b i ⟨rfl, h1, h2⟩
      have := this (i - r.off) (by omega)
      rw [show r.off + (i - r.off) = i by omega] at this
      exact this.imp id (in_mono hD)
    | store r k => exact fun b i hi => .inr (in_mono hD (in_cover this b i hi))
  rw [show (f p q).trace M = (f ⟨two p.buf q.buf 0, p.off⟩ ⟨two p.buf q.buf 1, q.off⟩).trace M from rfl, h3]
  refine ⟨noStale_ren _ _ _ (fun b i => two_in0) h1.1, fun a ha => ?_⟩
  obtain ⟨a, ha', rfl⟩ := List.mem_map.1 ha
  have := h1.2 a ha'
  cases a with
  | load r k => exact fun i hi => (this i hi).imp two_in0 two_in1
  | store r k => exact fun i hi => two_in1 (this i hi)

end Simd
