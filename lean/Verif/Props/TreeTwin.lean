import Verif.Spec.TreeTwin
import Verif.Props.LendTwin
import Verif.Props.Agree
/-
C102: programs with references see the same on all machines under either set of rules for references.
-/
namespace Simd
open Spec Agree
open Client (Seen)

namespace Agree

theorem exact_plain {M : Machine} {w : Lend.World} (hI : Lend.RInv M.P w) {op : Lend.Op} (hl : Lend.Legal M w op) : Lend.Exact w op ↔ w.plain.Exact op := by
  cases op with
  | call c keep =>
    have e : w.plain.at' (input c).1 = _ := Lend.at_eq hI (Lend.Inits.within hI (Lend.CanCall.inits hl))
    refine forall_congr' fun xs => forall_congr' fun res => forall_congr' fun _ => ?_
    rw [e]
    exact Iff.rfl
  | _ => exact Iff.rfl

theorem reaches_of_ported {M : Machine} {p : Lend.Program} {h : List Seen} {u : Tree.Use.World} (hr : Tree.Use.Ported M p h u) : Tree.Use.Reaches M u := by
  induction hr with
  | start => exact .start
  | step _ _ hl _ hs ih => exact ih.step hl (Tree.Use.exec_of_shows hs)

theorem ported_of_trees {M : Machine} {p : Lend.Program} {h : List Seen} {u : Tree.Use.World} (hr : Tree.Use.Ported M p h u) : ∃ w, Lend.Ported M p h w ∧ Same w u := by
  induction hr with
  | start => exact ⟨.start, .start, rfl, fun r s ρ σ ρ' σ' h => by cases h⟩
  | @step h u u1 op v h1 h2 h3 hx h4 ih =>
    obtain ⟨w, hw, hs⟩ := ih
    have hI := Lend.reaches_rinv (Lend.ported_reaches hw)
    have hJ := Tree.Use.reaches_inv (reaches_of_ported h1)
    have hl := (hs.legal hI hJ op).2 h3
    have a := (C100_step M (reaches_of_ported h1) h3 _ _).1 ⟨_, h4, rfl⟩
    rw [← hs.plain] at a hx
    obtain ⟨e', g1, g2⟩ := (C99_step M (Lend.ported_reaches hw) hl _ _).2 a
    cases e' with
    | ok w1 =>
      injection g2 with g2
      exact ⟨w1, hw.step h2 hl ((exact_plain hI hl).2 hx) g1, hs.step hI hJ h3 (Lend.exec_of_shows g1) (Tree.Use.exec_of_shows h4) g2⟩
    | panic | ub => cases g2

theorem trees_of_ported {M : Machine} {p : Lend.Program} {h : List Seen} {w : Lend.World} (hr : Lend.Ported M p h w) : ∃ u, Tree.Use.Ported M p h u ∧ Same w u := by
  induction hr with
  | start => exact ⟨.start, .start, rfl, fun r s ρ σ ρ' σ' h => by cases h⟩
  | @step h w w1 op v h1 h2 h3 hx h4 ih =>
    obtain ⟨u, hu, hs⟩ := ih
    obtain ⟨op, rfl⟩ := op_onto op
    have hI := Lend.reaches_rinv (Lend.ported_reaches h1)
    have hJ := Tree.Use.reaches_inv (reaches_of_ported hu)
    have hl := (hs.legal hI hJ op).1 h3
    have hx := (exact_plain hI h3).1 hx
    have a := (C99_step M (Lend.ported_reaches h1) h3 _ _).1 ⟨_, h4, rfl⟩
    rw [hs.plain] at a hx
    obtain ⟨e', g1, g2⟩ := (C100_step M (reaches_of_ported hu) hl _ _).2 a
    cases e' with
    | ok u1 =>
      injection g2 with g2
      exact ⟨u1, hu.step h2 hl hx g1, hs.step hI hJ hl (Lend.exec_of_shows h4) (Tree.Use.exec_of_shows g1) g2.symm⟩
    | panic | ub => cases g2

end Agree

/-- C102, one machine under Stacked Borrows and one under Tree Borrows: after as many steps, a program has got to know the same, and has the same. -/
theorem C102_mixed {M M' : Machine} {p : Lend.Program} {h h' : List Seen} {w : Lend.World} {u : Tree.Use.World} (hr : Lend.Ported M p h w) (hr' : Tree.Use.Ported M' p h' u) (hl : h.length = h'.length) :
    h = h' ∧ w.plain.Alike u.plain := by
  obtain ⟨w', hw, hs⟩ := ported_of_trees hr'
  obtain ⟨rfl, ht⟩ := C101_same hr hw hl
  rw [← hs.plain]
  exact ⟨rfl, ht.kinds, ht.shapes, ht.bytes⟩

/-- C102, two machines under Tree Borrows: after as many steps, a program has got to know the same, and has the same. -/
theorem C102_trees {M M' : Machine} {p : Lend.Program} {h h' : List Seen} {u u' : Tree.Use.World} (hr : Tree.Use.Ported M p h u) (hr' : Tree.Use.Ported M' p h' u') (hl : h.length = h'.length) :
    h = h' ∧ u.plain.Alike u'.plain := by
  obtain ⟨w, hw, hs⟩ := ported_of_trees hr
  rw [← hs.plain]
  exact C102_mixed hw hr' hl

/-- C102, the same runs: what a program can get to know, and have, on a machine is the same under both sets of rules. -/
theorem C102_runs (M : Machine) (p : Lend.Program) (h : List Seen) (m : Lend.Plain) : (∃ w, Lend.Ported M p h w ∧ w.plain = m) ↔ ∃ u, Tree.Use.Ported M p h u ∧ u.plain = m := by
  constructor
  · rintro ⟨w, hw, rfl⟩
    obtain ⟨u, hu, hs⟩ := trees_of_ported hw
    exact ⟨u, hu, hs.plain.symm⟩
  · rintro ⟨u, hu, rfl⟩
    obtain ⟨w, hw, hs⟩ := ported_of_trees hu
    exact ⟨w, hw, hs.plain⟩

/-- The program of C101 that shows a UUID, on x86-64 with AVX2 under Stacked Borrows and on wasm32 with SIMD128 under Tree Borrows. -/
example : ∃ h w u, Lend.Ported sender Lend.shownUuid h w ∧ Tree.Use.Ported receiver Lend.shownUuid h u ∧ h.length = 3 ∧ w.plain.Alike u.plain ∧ ∃ ρ, u.plain.refs 2 = some ρ ∧ ρ.len = 16 := by
  obtain ⟨w, h1, -⟩ := Lend.shownUuid_runs sender (some .avx2) 16 (Dispatch.runs_first _ _ _ (by decide) (by decide) : Dispatch.Runs sender.build sender.cpu Dispatch.uuid_format_simple _) (by decide)
    (Nat.le_trans (by decide) sender_max)
  obtain ⟨w', h1', -, ρ, h2, h3⟩ := Lend.shownUuid_runs receiver (some .wasm128) 24
    (by show Dispatch.Runs _ _ _ _; unfold Dispatch.Runs; rw [if_pos (by decide)]; decide) (by decide) (by decide)
  obtain ⟨u, hu, e⟩ := (C102_runs receiver _ _ _).1 ⟨w', h1', rfl⟩
  exact ⟨_, w, u, h1, hu, rfl, (C102_mixed h1 hu rfl).2, _, (congrArg (fun m : Lend.Plain => m.refs 2) e).trans (Lend.plain_ref h2), h3⟩

end Simd
