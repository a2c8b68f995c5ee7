import Verif.Model.Heap
/-
What the safety sections of the raw-pointer functions ask for, and what a call may change, written cell by cell.
-/
namespace Simd.Spec

/-- `p` is valid for reading, and the bytes there are `xs`. -/
def Reads (m : Mem) (p : Ptr) (xs : List Byte) : Prop :=
  p.off + xs.length ≤ m.size p.buf ∧ ∀ i, (h : i < xs.length) → m.cell p.buf (p.off + i) = some xs[i]

/-- `q` is valid for writing `n` bytes. -/
def Writable (m : Mem) (q : Ptr) (n : Nat) : Prop := q.off + n ≤ m.size q.buf

/-- The `a` bytes at `p` and the `b` bytes at `q` have no byte in common. -/
def NoOverlap (p : Ptr) (a : Nat) (q : Ptr) (b : Nat) : Prop :=
  ∀ i j, i < a → j < b → ¬ (p.buf = q.buf ∧ p.off + i = q.off + j)

/-- `m'` is `m` except that the bytes at `q` are now `ys`. -/
def Wrote (m m' : Mem) (q : Ptr) (ys : List Byte) : Prop :=
  m'.nbuf = m.nbuf ∧ m'.size = m.size ∧ (∀ i, (h : i < ys.length) → m'.cell q.buf (q.off + i) = some ys[i]) ∧
    ∀ b o, (∀ i, i < ys.length → ¬ (b = q.buf ∧ o = q.off + i)) → m'.cell b o = m.cell b o

/-- `m'` differs from `m` in at most the `n` bytes at `q`, and every initialised byte is still initialised. -/
def OnlyChanged (m m' : Mem) (q : Ptr) (n : Nat) : Prop :=
  m'.nbuf = m.nbuf ∧ m'.size = m.size ∧ (∀ b o, (m.cell b o).isSome → (m'.cell b o).isSome) ∧
    ∀ b o, (∀ i, i < n → ¬ (b = q.buf ∧ o = q.off + i)) → m'.cell b o = m.cell b o

/-- Every allocation of `m` is the same in `m'`; there may be further ones. -/
def Kept (m m' : Mem) : Prop :=
  m.nbuf ≤ m'.nbuf ∧ ∀ b, b < m.nbuf → m'.size b = m.size b ∧ ∀ o, m'.cell b o = m.cell b o

/-- Every allocation of `m` but `v` is the same in `m'`; there may be further ones. -/
def KeptBut (m m' : Mem) (v : Nat) : Prop :=
  m.nbuf ≤ m'.nbuf ∧ ∀ b, b < m.nbuf → b ≠ v → m'.size b = m.size b ∧ ∀ o, m'.cell b o = m.cell b o

/-- What growing a vector by at most `n` bytes may do: nothing but the vector's own allocation changes, and the vector either stays where it is or,
if its spare capacity is less than `n`, moves to a new and larger allocation of at most `isize::MAX` bytes. -/
def Grown (P : Plat) (n : Nat) (m : Mem) (v : RVec) (m' : Mem) (v' : RVec) : Prop :=
  KeptBut m m' v.buf ∧ (v'.buf = v.buf ∧ v'.cap = v.cap ∨ m.nbuf ≤ v'.buf ∧ v.cap < v.len + n ∧ v.cap < v'.cap ∧ v'.cap ≤ P.isizeMax)

/-- `s` is a box that did not exist in `m` and is, in `m'`, an allocation of its own with contents `ys`. -/
def NewBox (m m' : Mem) (s : Slice) (ys : List Byte) : Prop :=
  m.nbuf ≤ s.ptr.buf ∧ s.ptr.buf < m'.nbuf ∧ s.ptr.off = 0 ∧ s.len = ys.length ∧ m'.size s.ptr.buf = ys.length ∧ Reads m' s.ptr ys

/-- `v` is a vector in `m`: an allocation of `v.cap` bytes, starting with the `v.len` bytes `ys`. -/
def IsVec (m : Mem) (v : RVec) (ys : List Byte) : Prop :=
  v.buf < m.nbuf ∧ v.cap = m.size v.buf ∧ v.len = ys.length ∧ Reads m ⟨v.buf, 0⟩ ys

/-- `v` is a vector with contents `ys` in an allocation that did not exist in `m`. -/
def NewVec (m m' : Mem) (v : RVec) (ys : List Byte) : Prop := m.nbuf ≤ v.buf ∧ IsVec m' v ys

end Simd.Spec
