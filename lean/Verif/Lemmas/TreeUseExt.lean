import Verif.Lemmas.TreeUsePar
import Verif.Props.TreeExt
/-
The functions of uuid-simd's `ext.rs` in programs with references, with borrow trees.
-/
namespace Simd.Tree.Use
open Spec

variable {M : Machine} {w w' : World}

theorem argsExt_shared (c : ExtCall) : (w.argsExt c).shared = ⟨⟨w.name c.shared.ptr.buf, c.shared.ptr.off⟩, c.shared.len⟩ := by cases c <;> rfl

/-- What safe Rust guarantees is what C97 asks for. -/
theorem ext_obeys (hI : Inv M.P w) {c : ExtCall} (h : Step.Legal M w (.ext c)) {xs : List Byte} (hn : xs.length = c.shared.len) (hx : w.Bytes c.shared.ptr xs) : ObeysExt w.st (w.argsExt c) xs := by
  obtain ⟨hr, hc⟩ := h
  obtain ⟨o, g⟩ := Within.owner hI (Inits.within hI hc.1)
  have hmax := g.max; have hwi := g.within
  refine C97_call M _ w.st xs (by cases c <;> exact hr) hI.sound ?_ ?_ ?_ (by omega)
  · rw [argsExt_shared]; exact CanRead.readable hI hc
  · rw [argsExt_shared]; exact hx
  · rw [argsExt_shared]; exact hn

theorem ext_inv (hI : Inv M.P w) {c : ExtCall} {T : Option Nat} (h : Step.Legal M w (.ext c)) {s' : State} (hA : AfterExt w.st s' (w.argsExt c)) : Inv M.P ⟨w.vars, s', w.refs⟩ ∧ Frozen w ⟨w.vars, s', w.refs⟩ T := by
  have hm : MemAfter w.st.mem s'.mem fun _ _ => False :=
    ⟨hA.kept.1, fun b hb => (hA.kept.2 b hb).1, fun b i hb hi => by rw [(hA.kept.2 b hb).2]; exact hi, fun b i hb _ => (hA.kept.2 b hb).2 i⟩
  refine hI.change (fun _ => False) hA.after.heap hm (fun _ _ => rfl) (fun r ρ h => ⟨id, hI.names r ρ h⟩) (fun b hb _ => hA.after.kept b hb) (fun b i _ _ => ?_) (fun _ _ h _ _ => h.elim) (fun _ _ h => h.elim)
    (fun _ _ _ _ h => h.elim) fun b hb h' => ?_
  · unfold extLoans
    rw [argsExt_shared]
    split
    · rename_i hi; exact (CanRead.permits hI h.2 hi).spares hI
    · exact fun _ _ _ _ _ => ⟨trivial, fun _ _ _ _ => trivial⟩
  · rcases h' with h' | h'
    · exact fun _ => hA.freed b h' hb
    · exact absurd (fun _ _ h => h.elim) h'

/-- The result, and the world after the call. -/
theorem ext_ends (hI : Inv M.P w) {c : ExtCall} (h : Step.Legal M w (.ext c)) {xs : List Byte} (hn : xs.length = c.shared.len) (hx : w.Bytes c.shared.ptr xs) :
    ∃ res s', Spec.ExtMeans xs res c ∧ (w.argsExt c).tree w.st = returns res s' ∧ AfterExt w.st s' (w.argsExt c) := by
  have h1 := ext_obeys hI h hn hx
  have hmean : ∀ res, Spec.ExtMeans xs res (w.argsExt c) → Spec.ExtMeans xs res c := fun res h => by cases c <;> exact h
  unfold ObeysExt at h1
  split at h1
  · rename_i r s' e; exact ⟨some r, s', hmean _ h1.1, e, h1.2⟩
  · rename_i s' e; exact ⟨none, s', hmean _ h1.1, e, h1.2⟩
  · exact h1.elim
  · exact h1.elim

theorem ext_world (hI : Inv M.P w) {c : ExtCall} (h : Step.Legal M w (.ext c)) {xs : List Byte} (hn : xs.length = c.shared.len) (hx : w.Bytes c.shared.ptr xs) :
    ∃ res s', Spec.ExtMeans xs res c ∧ (w.argsExt c).tree w.st = returns res s' ∧
      (w.after ((w.argsExt c).tree w.st) fun _ => w.vars) = .ok ⟨w.vars, s', w.refs⟩ ∧ AfterExt w.st s' (w.argsExt c) := by
  obtain ⟨res, s', h1, h2, h3⟩ := ext_ends hI h hn hx
  refine ⟨res, s', h1, h2, ?_, h3⟩
  rw [h2]
  cases res <;> rfl

/-- Every step. -/
theorem exec_fine (hI : Inv M.P w) {op : Step} (h : op.Legal M w) {e : End} (he : Exec M.P w op e) : Fine M.P w (op.through.map w.name) e := by
  cases he with
  | one op => exact step_fine hI h
  | par threads i config src dst keep r hr => exact (par_fine hI h).1 r hr
  | ext c =>
    obtain ⟨xs, hn, hx⟩ := Inits.reads hI h.2.1
    obtain ⟨res, s', -, -, e, h4⟩ := ext_world hI h hn hx
    rw [e]
    exact ext_inv hI h h4

end Simd.Tree.Use
