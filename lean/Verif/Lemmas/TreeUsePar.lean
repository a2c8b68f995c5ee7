import Verif.Lemmas.TreeUseValue
import Verif.Props.TreePar
/-
`par_encode` in programs with references, with borrow trees.
-/
namespace Simd.Tree.Use
open Spec
open Lend (Ref returned par_value)

variable {M : Machine} {w w' : World}

theorem par_fine (hI : Inv M.P w) {threads : Nat} {i : Option Isa} {config : Simd.Base64.Config} {src dst : Slice} {keep : Option Nat} (h : w.CanCall M (.base64Encode i config src dst) keep) :
    (∀ r, Split.Outcome (Tree.Base64.par_encode M.P threads i config ⟨⟨w.name src.ptr.buf, src.ptr.off⟩, src.len⟩ ⟨⟨w.name dst.ptr.buf, dst.ptr.off⟩, dst.len⟩) w.st r →
      Fine M.P w (some (w.name dst.ptr.buf)) (w.kept (.base64Encode i config src dst) keep r)) ∧
    ∃ r, Split.Outcome (Tree.Base64.par_encode M.P threads i config ⟨⟨w.name src.ptr.buf, src.ptr.off⟩, src.len⟩ ⟨⟨w.name dst.ptr.buf, dst.ptr.off⟩, dst.len⟩) w.st r := by
  obtain ⟨hr, hr', hl, hb⟩ := h.borrows hI
  obtain ⟨o, h1, h2, h3⟩ := C96_par_encode M threads i config _ _ w.st hr hI.sound hl hb
  refine ⟨fun r hrun => ?_, h3⟩
  obtain ⟨xs, hxl, hx⟩ := h.input hI
  have hv := par_value M threads i config _ _ _ w.st.mem hxl.symm hx hr' hb ((h1 o).2 rfl)
  have hs := h2 r hrun
  refine h.fine hI (fun e => ?_) (fun a s' e => ?_) fun s' e => ?_
  · subst e; exact hs
  · subst e
    cases o with
    | ok a' m' =>
      obtain ⟨rfl, g1, g2⟩ := hs
      obtain ⟨g3, g4, ys, g5, g6, g7, -⟩ := hv.1 a' _ rfl
      exact ⟨g1, g3, g4, a', [], ys, g2, g5, g6, g7⟩
    | err | panic | ub => exact hs.elim
  · subst e
    cases o with
    | err m' =>
      obtain ⟨rfl, g1⟩ := hs
      obtain ⟨g3, g4, -⟩ := hv.2.1 _ rfl
      exact ⟨g1, g3, g4⟩
    | ok | panic | ub => exact hs.elim

/-- What `par_encode` leaves. -/
theorem par_ends (hI : Inv M.P w) {threads : Nat} {i : Option Isa} {config : Simd.Base64.Config} {src dst : Slice} {keep : Option Nat} (h : w.CanCall M (.base64Encode i config src dst) keep) {r : Result Slice}
    (hr : Split.Outcome (Tree.Base64.par_encode M.P threads i config ⟨⟨w.name src.ptr.buf, src.ptr.off⟩, src.len⟩ ⟨⟨w.name dst.ptr.buf, dst.ptr.off⟩, dst.len⟩) w.st r) {xs : List Byte}
    (hl : xs.length = src.len) (hx : w.Bytes src.ptr xs) :
    (∀ w', w.kept (.base64Encode i config src dst) keep r = .ok w' → ∃ res, CallMeans xs dst.len res (.base64Encode i config src dst) ∧ w.Ended w' (.base64Encode i config src dst) keep res) ∧
    (w.kept (.base64Encode i config src dst) keep r = .panic → M.P.usizeMax < threads * 4096 ∨ CallMeans xs dst.len none (.base64Encode i config src dst)) := by
  obtain ⟨hrn, hr', hld, hb⟩ := h.borrows hI
  obtain ⟨o, h1, h2, -⟩ := C96_par_encode M threads i config _ _ w.st hrn hI.sound hld hb
  have hv := par_value M threads i config _ _ _ w.st.mem hl.symm hx hr' hb ((h1 o).2 rfl)
  have hs := h2 r hr
  refine ⟨fun w' hw => kept_value hI h hw (xs := xs) (fun a s' e => ?_) fun s' e => ?_, fun hw => ?_⟩
  · subst e
    cases o with
    | ok a' m' =>
      obtain ⟨rfl, g1, g2⟩ := hs
      obtain ⟨-, -, ys, g5, -, g7, g8⟩ := hv.1 a' _ rfl
      exact ⟨g1, a', ys, g2, g5, g7, g8⟩
    | err | panic | ub => exact hs.elim
  · subst e
    cases o with
    | err m' =>
      obtain ⟨-, -, g⟩ := hv.2.1 _ rfl
      exact g
    | ok | panic | ub => exact hs.elim
  · have hw := kept_panic hw
    subst hw
    cases o with
    | panic => exact hv.2.2 rfl
    | ok | err | ub => exact hs.elim

end Simd.Tree.Use
