import Verif.Model.Trace
/-
Which bytes a call may access.
-/
namespace Simd.Spec

/-- Byte `i` of allocation `b` is one of the `n` bytes at `p`. -/
def In (p : Ptr) (n : Nat) (b i : Nat) : Prop := b = p.buf ∧ p.off ≤ i ∧ i < p.off + n

/-- Every byte loaded is one of the `n` bytes at `p`, every byte stored is one of the `d` bytes at `q`. -/
def Confined (t : List Access) (p : Ptr) (n : Nat) (q : Ptr) (d : Nat) : Prop :=
  ∀ a ∈ t, match a with
    | .load r k => ∀ i, i < k → In p n r.buf (r.off + i)
    | .store r k => ∀ i, i < k → In q d r.buf (r.off + i)

/-- Nothing is stored, and every byte loaded is one of the `n` bytes at `p`. -/
def ReadOnly (t : List Access) (p : Ptr) (n : Nat) : Prop :=
  ∀ a ∈ t, ∃ r k, a = .load r k ∧ ∀ i, i < k → In p n r.buf (r.off + i)

/-- Every byte loaded is one of those in `known` or was stored by an earlier access of the same call. -/
def NoStale (known : Nat → Nat → Prop) : List Access → Prop
  | [] => True
  | .load r k :: t => (∀ i, i < k → known r.buf (r.off + i)) ∧ NoStale known t
  | .store r k :: t => NoStale (fun b i => known b i ∨ In r k b i) t

/-- Every byte loaded or stored is one of the `n` bytes at `p` or one of the `d` bytes at `q`; those stored are at `q`; and no byte at `q`
is loaded unless the same call has stored it. -/
def Staged (t : List Access) (p : Ptr) (n : Nat) (q : Ptr) (d : Nat) : Prop :=
  NoStale (In p n) t ∧ ∀ a ∈ t, match a with
    | .load r k => ∀ i, i < k → In p n r.buf (r.off + i) ∨ In q d r.buf (r.off + i)
    | .store r k => ∀ i, i < k → In q d r.buf (r.off + i)

end Simd.Spec
