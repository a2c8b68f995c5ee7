import Verif.Model.Fmt
/-
What formatting with options produces. Independent of the order of the writes.
-/
namespace Simd.Spec
open Fmt

/-- `out` is the text `t` formatted with the options `o`: the first `precision` characters of `t`, surrounded by as many fill characters as are missing to the width; on the right
by default and if left-aligned, on the left if right-aligned, on both sides if centred, where the right side gets one more if the number is odd. -/
def Padded (o : Options) (t out : List Char) : Prop :=
  ∃ t' pre post, out = List.replicate pre o.fill ++ t' ++ List.replicate post o.fill ∧
    t' <+: t ∧ (∀ p, o.precision = some p → t'.length = min p t.length) ∧ (o.precision = none → t' = t) ∧
    (o.width = none → pre = 0 ∧ post = 0) ∧ (∀ w, o.width = some w → out.length = max w t'.length) ∧
    ((o.align = none ∨ o.align = some .left) → pre = 0) ∧ (o.align = some .right → post = 0) ∧ (o.align = some .center → pre ≤ post ∧ post ≤ pre + 1)

/-- There is room for `n` further characters. -/
def HasRoom (k : Sink) (n : Nat) : Prop := ∀ r, k.room = some r → n ≤ r

/-- The text `out` was written to the sink `k` if there was room for it; otherwise an error is reported and at most a prefix has been written. -/
def Written (out : List Char) (k : Sink) (r : Sink × Bool) : Prop :=
  (HasRoom k out.length → r.2 = true ∧ r.1.out = k.out ++ out) ∧ (¬ HasRoom k out.length → r.2 = false ∧ ∃ p, p <+: out ∧ p ≠ out ∧ r.1.out = k.out ++ p)

/-- `t` is the ASCII text with the bytes `bs`. -/
def IsText (t : List Char) (bs : List (BitVec 8)) : Prop := (∀ c ∈ t, c.toNat < 128) ∧ t.map (fun c => BitVec.ofNat 8 c.toNat) = bs

end Simd.Spec
