import Verif.Lemmas.Footprint
import Verif.Model.Allocs
/-
What the run of any program does to memory.
-/
namespace Simd

/-- How the memory after a program that stores only to `W` may differ from that before: further allocations; and other bytes, though still bytes, in `W`. -/
structure MemAfter (m m' : Mem) (W : Nat → Nat → Prop) : Prop where
  nbuf : m.nbuf ≤ m'.nbuf
  size : ∀ b, b < m.nbuf → m'.size b = m.size b
  init : ∀ b i, b < m.nbuf → (m.cell b i).isSome → (m'.cell b i).isSome
  cell : ∀ b i, b < m.nbuf → ¬ W b i → m'.cell b i = m.cell b i

theorem MemAfter.refl (m : Mem) (W : Nat → Nat → Prop) : MemAfter m m W := ⟨Nat.le_refl _, fun _ _ => rfl, fun _ _ _ h => h, fun _ _ _ _ => rfl⟩

theorem MemAfter.write (m : Mem) (p : Ptr) (bs : List Byte) : MemAfter m (m.write p bs) (Spec.In p bs.length) := by
  refine ⟨Nat.le_refl _, fun _ _ => rfl, fun b i _ h => ?_, fun b i _ h => ?_⟩
  · show (if b = p.buf ∧ p.off ≤ i ∧ i < p.off + bs.length then bs[i - p.off]? else m.cell b i).isSome
    split
    · rename_i hh
      rw [List.getElem?_eq_getElem (by omega)]; rfl
    · exact h
  · exact if_neg h

theorem MemAfter.alloc (m : Mem) (n : Nat) (W : Nat → Nat → Prop) : MemAfter m (m.alloc n) W := by
  have hne : ∀ {b}, b < m.nbuf → b ≠ m.nbuf := fun h => by omega
  refine ⟨Nat.le_succ _, fun b hb => if_neg (hne hb), fun b i hb h => ?_, fun b i hb _ => if_neg (hne hb)⟩
  show (if b = m.nbuf then none else m.cell b i).isSome
  rw [if_neg (hne hb)]; exact h

theorem MemAfter.trans {m m1 m2 : Mem} {W : Nat → Nat → Prop} (h : MemAfter m m1 W) (h' : MemAfter m1 m2 W) : MemAfter m m2 W := by
  have hn := h.nbuf
  exact ⟨Nat.le_trans h.nbuf h'.nbuf, fun b hb => (h'.size b (by omega)).trans (h.size b hb), fun b i hb hs => h'.init b i (by omega) (h.init b i hb hs),
    fun b i hb hW => (h'.cell b i (by omega) hW).trans (h.cell b i hb hW)⟩

theorem MemAfter.mono {m m1 : Mem} {V W : Nat → Nat → Prop} (h : MemAfter m m1 V) (hVW : ∀ b i, V b i → W b i) : MemAfter m m1 W :=
  ⟨h.nbuf, h.size, h.init, fun b i hb hW => h.cell b i hb fun hV => hW (hVW b i hV)⟩

/-- A program changes only what its stores are said to change. -/
theorem Prog.run_after {α : Type} {R W : Nat → Nat → Prop} {x : Prog α} {m m' : Mem} (hi : Inside R W (x.trace m)) (hx : (∃ a, x.run m = .ok a m') ∨ x.run m = .err m') : MemAfter m m' W := by
  induction x generalizing m with
  | pure a => rcases hx with ⟨_, hx⟩ | hx <;> cases hx; exact .refl _ _
  | err => rcases hx with ⟨_, hx⟩ | hx <;> cases hx; exact .refl _ _
  | load p n k ih =>
    simp only [Prog.run] at hx
    simp only [Prog.trace] at hi
    split at hx
    · rename_i bs e
      rw [e] at hi
      exact ih _ hi.tail hx
    · rcases hx with ⟨_, hx⟩ | hx <;> cases hx
  | store p bs k ih =>
    simp only [Prog.run] at hx
    simp only [Prog.trace] at hi
    split at hx
    · rename_i hc
      rw [if_pos hc] at hi
      exact ((MemAfter.write m p bs).mono (hi _ (.head _))).trans (ih hi.tail hx)
    · rcases hx with ⟨_, hx⟩ | hx <;> cases hx
  | chk p k ih =>
    simp only [Prog.run] at hx
    simp only [Prog.trace] at hi
    split at hx
    · rename_i hc
      rw [if_pos hc] at hi
      exact ih hi hx
    · rcases hx with ⟨_, hx⟩ | hx <;> cases hx
  | alloc n k ih => exact (MemAfter.alloc m n W).trans (ih _ hi hx)
  | _ => rcases hx with ⟨_, hx⟩ | hx <;> cases hx

/-- The sizes of new allocations are those that the program asked for. -/
theorem Prog.run_sizes {α : Type} {x : Prog α} {m m' : Mem} (hx : (∃ a, x.run m = .ok a m') ∨ x.run m = .err m') {b : Nat} (h1 : m.nbuf ≤ b) (h2 : b < m'.nbuf) :
    m'.size b = 0 ∨ m'.size b ∈ x.allocs m := by
  induction x generalizing m with
  | pure a => rcases hx with ⟨_, hx⟩ | hx <;> cases hx; omega
  | err => rcases hx with ⟨_, hx⟩ | hx <;> cases hx; omega
  | load p n k ih =>
    simp only [Prog.run] at hx
    simp only [Prog.allocs]
    split at hx
    · rename_i bs e
      rw [e]
      exact ih _ hx h1
    · rcases hx with ⟨_, hx⟩ | hx <;> cases hx
  | store p bs k ih =>
    simp only [Prog.run] at hx
    simp only [Prog.allocs]
    split at hx
    · rename_i hc
      rw [if_pos hc]
      exact ih hx h1
    · rcases hx with ⟨_, hx⟩ | hx <;> cases hx
  | chk p k ih =>
    simp only [Prog.run] at hx
    simp only [Prog.allocs]
    split at hx
    · rename_i hc
      rw [if_pos hc]
      exact ih hx h1
    · rcases hx with ⟨_, hx⟩ | hx <;> cases hx
  | alloc n k ih =>
    have hx' : (∃ a, (k m.nbuf).run (m.alloc n) = .ok a m') ∨ (k m.nbuf).run (m.alloc n) = .err m' := hx
    rcases Nat.lt_or_ge m.nbuf b with h | h
    · have := ih _ hx' h
      simp only [Prog.allocs]
      split
      · exact this
      · exact this.imp id fun h => List.mem_cons_of_mem _ h
    · obtain rfl : b = m.nbuf := by omega
      have hs : m'.size m.nbuf = (m.alloc n).size m.nbuf := (run_after (R := fun _ _ => True) (W := fun _ _ => True) (fun a _ => by cases a <;> exact fun _ _ _ => trivial) hx').size _ (Nat.lt_succ_self _)
      have hs : m'.size m.nbuf = n := hs.trans (if_pos rfl)
      simp only [Prog.allocs]
      split
      · exact .inl (by omega)
      · rw [hs]; exact .inr (List.mem_cons_self ..)
  | _ => rcases hx with ⟨_, hx⟩ | hx <;> cases hx

namespace Spec

theorem Reads.kept {m m' : Mem} {W : Nat → Nat → Prop} (h : MemAfter m m' W) {p : Ptr} {xs : List Byte} (hp : p.buf < m.nbuf) (hr : Reads m p xs)
    (hW : ∀ i, i < xs.length → ¬ W p.buf (p.off + i)) : Reads m' p xs :=
  ⟨by rw [h.size _ hp]; exact hr.1, fun i hi => (h.cell _ _ hp (hW i hi)).trans (hr.2 i hi)⟩

theorem Reads.still {m m' : Mem} {W : Nat → Nat → Prop} (h : MemAfter m m' W) {p : Ptr} {xs : List Byte} (hp : p.buf < m.nbuf) (hr : Reads m p xs) :
    ∃ ys : List Byte, ys.length = xs.length ∧ Reads m' p ys := by
  have hs : ∀ i : Fin xs.length, (m'.cell p.buf (p.off + i)).isSome := fun i => h.init _ _ hp (by rw [hr.2 i i.2]; rfl)
  refine ⟨List.ofFn fun i : Fin xs.length => (m'.cell p.buf (p.off + i)).get (hs i), List.length_ofFn, ?_, fun i hi => ?_⟩
  · rw [List.length_ofFn, h.size _ hp]; exact hr.1
  · rw [List.getElem_ofFn, Option.some_get]

theorem Reads.part {m : Mem} {p : Ptr} {xs : List Byte} (hr : Reads m p xs) {k n : Nat} (h : k + n ≤ xs.length) : ∃ ys : List Byte, ys.length = n ∧ Reads m ⟨p.buf, p.off + k⟩ ys := by
  refine ⟨(xs.drop k).take n, by rw [List.length_take, List.length_drop]; omega, ?_, fun i hi => ?_⟩
  · have := hr.1
    rw [List.length_take, List.length_drop]
    show p.off + k + _ ≤ m.size p.buf
    omega
  · rw [List.length_take, List.length_drop] at hi
    rw [List.getElem_take, List.getElem_drop]
    show m.cell p.buf (p.off + k + i) = _
    rw [Nat.add_assoc]
    exact hr.2 (k + i) (by omega)

end Spec

end Simd
