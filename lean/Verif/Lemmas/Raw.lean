import Verif.Lemmas.Run
import Verif.Spec.Raw
/-
`Does` and `Checks` in the terms of `Verif.Spec.Raw`.
-/
namespace Simd

theorem Spec.Reads.has {m p xs} (h : Spec.Reads m p xs) : HasBytes m p xs := h

theorem Spec.NoOverlap.apart {p q : Ptr} {a b : Nat} (h : Spec.NoOverlap p a q b) : a = 0 ∨ b = 0 ∨ Apart p q a b := by
  unfold Apart
  by_cases ha : a = 0
  · exact .inl ha
  by_cases hb : b = 0
  · exact .inr (.inl hb)
  right; right
  by_contra hc
  simp only [not_or, not_not, Nat.not_le] at hc
  obtain ⟨h1, h2, h3⟩ := hc
  by_cases hle : p.off ≤ q.off
  · exact h (q.off - p.off) 0 (by omega) (by omega) ⟨h1, by omega⟩
  · exact h 0 (p.off - q.off) (by omega) (by omega) ⟨h1, by omega⟩

theorem wrote_write (m : Mem) (q : Ptr) (ys : List Byte) : Spec.Wrote m (m.write q ys) q ys := by
  refine ⟨rfl, rfl, fun i h => ?_, fun b o h => ?_⟩
  · simp only [Mem.write]
    rw [if_pos ⟨trivial, by omega, by omega⟩, Nat.add_sub_cancel_left, List.getElem?_eq_getElem h]
  · simp only [Mem.write]
    rw [if_neg]
    rintro ⟨h1, h2, h3⟩
    exact h (o - q.off) (by omega) ⟨h1, by omega⟩

theorem SameOutside.only {m m' : Mem} {q : Ptr} {n : Nat} (h : SameOutside m m' q n) : Spec.OnlyChanged m m' q n :=
  ⟨h.nbuf, h.size, h.init, fun b o hb => h.cell b o fun ⟨h1, h2, h3⟩ => hb (o - q.off) (by omega) ⟨h1, by omega⟩⟩

variable {α : Type}

theorem Does.raw_ok {x : Prog α} {r spec xs q n m} (h : Does x r spec xs q n m) {ys} (hy : spec xs = some ys) :
    ∃ m', x.run m = .ok r m' ∧ Spec.Wrote m m' q ys := by
  rcases wp_out h with ⟨a, m', hr, rfl, zs, hz, _, rfl⟩ | ⟨m', hr, hn, _⟩
  · rw [hy] at hz; cases hz
    exact ⟨_, hr, wrote_write m q ys⟩
  · rw [hy] at hn; cases hn

theorem Does.raw_err {x : Prog α} {r spec xs q n m} (h : Does x r spec xs q n m) (hy : spec xs = none) :
    ∃ m', x.run m = .err m' ∧ Spec.OnlyChanged m m' q n := by
  rcases wp_out h with ⟨a, m', hr, rfl, zs, hz, _, rfl⟩ | ⟨m', hr, _, hn⟩
  · rw [hy] at hz; cases hz
  · exact ⟨_, hr, hn.only⟩

end Simd
