import Verif.Lemmas.LendSteps
import Verif.Props.BorrowExt
/-
The functions of uuid-simd's `ext.rs` in programs with references.
-/
namespace Simd.Lend
open Borrow Spec Client

variable {M : Machine} {w : World} {T : Option Nat}

theorem argsExt_shared (c : ExtCall) : (w.argsExt c).shared = ⟨⟨w.name c.shared.ptr.buf, c.shared.ptr.off⟩, c.shared.len⟩ := by cases c <;> rfl

/-- What safe Rust guarantees is what C98 asks for. -/
theorem ext_obeys (hI : RInv M.P w) {c : ExtCall} (h : Legal M w (.ext c)) {xs : List Byte} (hn : xs.length = c.shared.len) (hx : w.Bytes c.shared.ptr xs) : ObeysExt w.st (w.argsExt c) xs := by
  obtain ⟨hr, hc⟩ := h
  have g := CanRead.source hI hc
  have hmax := g.max
  refine C98_call M _ w.st xs (by cases c <;> exact hr) hI.base.sound ?_ ?_ ?_ ?_ (by omega)
  · rw [argsExt_shared]; exact g.readable
  · rw [argsExt_shared]; exact g.exists_
  · rw [argsExt_shared]; exact hx
  · rw [argsExt_shared]; exact hn

theorem ext_inv (hI : RInv M.P w) {c : ExtCall} (h : Legal M w (.ext c)) {s' : State} (hA : AfterExt w.st s' (w.argsExt c)) : RInv M.P ⟨⟨w.vars, s'⟩, w.refs⟩ ∧ Frozen w ⟨⟨w.vars, s'⟩, w.refs⟩ T := by
  have hm : MemAfter w.st.mem s'.mem fun _ _ => False :=
    ⟨hA.kept.1, fun b hb => (hA.kept.2 b hb).1, fun b i hb hi => by rw [(hA.kept.2 b hb).2]; exact hi, fun b i hb _ => (hA.kept.2 b hb).2 i⟩
  have hG : ∀ b i, b < w.st.mem.nbuf → Permits w b i (extLoans w.st (w.argsExt c) b i) ∧ extLoans w.st (w.argsExt c) b i ≠ .own := fun b i hb => by
    unfold extLoans
    rw [argsExt_shared]
    split
    · rename_i hi; exact ⟨CanRead.permits hI h.2 hi, nofun⟩
    · rw [if_neg (by omega)]; exact ⟨trivial, nofun⟩
  have home : ∀ x o, w.vars x = some o → s'.home (Spec.ownerOf o).1.buf = w.st.home (Spec.ownerOf o).1.buf := fun x o hx => hA.after.home _ (hI.base.valid x o hx).owns.tag
  have hI' : Inv M.P ⟨w.vars, s'⟩ := by
    refine ⟨hA.after.sound hI.base.sound, fun x o hx => valid_still hA.after (hI.base.valid x o hx) hm (fun i hi => ?_) (fun _ _ h => h), fun x y o o' hx hy e => ?_, fun b hb hf => ?_⟩
    · obtain ⟨h1, h2, -⟩ := Permits.facts hI hA.after (hG _ i (hI.base.valid x o hx).owns.exists_).1 x o hx rfl hi
      exact ⟨h2, h1⟩
    · dsimp only at e hx hy
      rw [home x o hx, home y o' hy] at e
      exact hI.base.apart x y o o' hx hy e
    · dsimp only at hb hf
      rcases Nat.lt_or_ge b w.st.mem.nbuf with hlt | hge
      · exact freed_after hA.after (hI.base.freed b hlt fun x o hx => by rw [← home x o hx]; exact hf x o hx) (hm.size b hlt) fun i => (hG b i hlt).2
      · exact hA.freed b hge hb
  refine hI.other hI' (fun r ρ hr => ⟨rfl, hI.names r ρ hr⟩) hA.after hm (fun r ρ b i hr hc => Permits.facts hI hA.after (hG b i ?_).1) fun _ _ _ _ _ _ _ h => h
  obtain ⟨o, h5, h6⟩ := hI.refs r ρ hr
  rw [hc.1.trans h6.home]
  exact (hI.base.valid _ o h5).owns.exists_

/-- The result, and the world after the call. -/
theorem ext_world (hI : RInv M.P w) {c : ExtCall} (h : Legal M w (.ext c)) {xs : List Byte} (hn : xs.length = c.shared.len) (hx : w.Bytes c.shared.ptr xs) :
    ∃ res s', ExtMeans xs res c ∧ (w.argsExt c).borrow w.st = returns res s' ∧ w.after ((w.argsExt c).borrow w.st) = .ok ⟨⟨w.vars, s'⟩, w.refs⟩ ∧ AfterExt w.st s' (w.argsExt c) := by
  have h1 := ext_obeys hI h hn hx
  have hmean : ∀ res, ExtMeans xs res (w.argsExt c) → ExtMeans xs res c := fun res h => by cases c <;> exact h
  unfold ObeysExt at h1
  split at h1
  · rename_i r s' e; exact ⟨some r, s', hmean _ h1.1, e, by rw [e]; rfl, h1.2⟩
  · rename_i s' e; exact ⟨none, s', hmean _ h1.1, e, by rw [e]; rfl, h1.2⟩
  · exact h1.elim
  · exact h1.elim

theorem ext_fine (hI : RInv M.P w) {c : ExtCall} (h : Legal M w (.ext c)) : Fine M.P w T (w.after ((w.argsExt c).borrow w.st)) := by
  obtain ⟨xs, hn, hx⟩ := Inits.reads hI h.2.1
  obtain ⟨res, s', -, -, e, h4⟩ := ext_world hI h hn hx
  rw [e]
  exact ext_inv hI h h4

end Simd.Lend
