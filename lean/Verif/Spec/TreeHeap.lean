import Verif.Model.TreeHeap
import Verif.Spec.TreeBorrows
import Verif.Spec.BorrowHeap
/-
What a function that allocates may do to the borrow trees, and what it has to give back.
-/
namespace Simd.Tree
open Spec (In owner)

/-- Allocation `b` has been deallocated, or has no bytes. -/
def Freed (s : State) (b : Nat) : Prop := s.freed b = true ∨ s.mem.size b = 0

/-- `p` is an owner of an allocation of `n` bytes: it points to its start, may write all of it, and nothing prevents it from deallocating it. -/
structure Owns (s : State) (p : Ptr) (n : Nat) : Prop where
  start : p.off = 0
  size : s.mem.size (s.home p.buf) = n
  mutable : Mutable s p n
  unprotected : ∀ u, s.Has (s.home p.buf) u → s.prot u = false

/-- The result with plain pointers in place of the tagged ones. -/
def untagResult (s : State) : {α : Type} → HeapCall α → α → α
  | _, .base64Encode .., r | _, .base64Decode .., r | _, .base32Encode .., r | _, .base32Decode .., r | _, .hexEncode .., r | _, .hexDecode .., r => Spec.Moves.move s.home r
  | _, .base64EncodeAppend .., r | _, .base32EncodeAppend .., r | _, .hexEncodeAppend .., r | _, .forgiving .., r => Spec.Moves.move s.home r
  | _, .base64DecodeAppend .., r | _, .base32DecodeAppend .., r | _, .hexDecodeAppend .., r => Spec.Moves.move s.home r

/-- The call with plain pointers in place of the tagged ones. -/
def untagHeap {α : Type} (s : State) : HeapCall α → HeapCall α
  | .base64Encode i config data ty => .base64Encode i config ⟨place s data.ptr, data.len⟩ ty
  | .base64Decode i config data ty => .base64Decode i config ⟨place s data.ptr, data.len⟩ ty
  | .base64EncodeAppend extra i config src dst => .base64EncodeAppend extra i config ⟨place s src.ptr, src.len⟩ { dst with buf := s.home dst.buf }
  | .base64DecodeAppend extra i config src dst => .base64DecodeAppend extra i config ⟨place s src.ptr, src.len⟩ { dst with buf := s.home dst.buf }
  | .forgiving extra fi di data => .forgiving extra fi di ⟨place s data.ptr, data.len⟩
  | .base32Encode w i config data ty => .base32Encode w i config ⟨place s data.ptr, data.len⟩ ty
  | .base32Decode w i config data ty => .base32Decode w i config ⟨place s data.ptr, data.len⟩ ty
  | .base32EncodeAppend w extra i config src dst => .base32EncodeAppend w extra i config ⟨place s src.ptr, src.len⟩ { dst with buf := s.home dst.buf }
  | .base32DecodeAppend w extra i config src dst => .base32DecodeAppend w extra i config ⟨place s src.ptr, src.len⟩ { dst with buf := s.home dst.buf }
  | .hexEncode i case data ty => .hexEncode i case ⟨place s data.ptr, data.len⟩ ty
  | .hexDecode i data ty => .hexDecode i ⟨place s data.ptr, data.len⟩ ty
  | .hexEncodeAppend extra i case src dst => .hexEncodeAppend extra i case ⟨place s src.ptr, src.len⟩ { dst with buf := s.home dst.buf }
  | .hexDecodeAppend extra i src dst => .hexDecodeAppend extra i ⟨place s src.ptr, src.len⟩ { dst with buf := s.home dst.buf }

/-- The caller may lend what the call borrows: it may read the source through its tag, and it owns the vector. -/
structure LendsHeap {α : Type} (s : State) (c : HeapCall α) : Prop where
  readable : Readable s c.shared.ptr c.shared.len
  owns : ∀ v, c.vec = some v → Owns s ⟨v.buf, 0⟩ v.cap

open Classical in
/-- What the call borrows, byte by byte: the source and the vector. -/
noncomputable def heapLoans {α : Type} (s : State) (c : HeapCall α) (b i : Nat) : Loan :=
  if In (place s c.shared.ptr) c.shared.len b i then .shared c.shared.ptr.buf
  else match c.vec with
    | none => .none
    | some v => if b = s.home v.buf ∧ i < v.cap then .excl v.buf else .none

/-- The state after a call that may have deallocated something: apart from that, the trees changed only as the loans allow. -/
def AfterHeap (s s' : State) (G : Nat → Nat → Loan) : Prop := AfterCall s { s' with freed := s.freed } G

/-- The call with borrow trees, from `s`, ends like the run `o` of the program without them: not with undefined behaviour, with the same memory and the same result; the trees changed only
as the loans allow; and of the allocations that existed, at most that of the vector has been deallocated. After `Ok`, every new allocation other than that of the owner has been deallocated, and
the owner has a new allocation, or is the vector that was given; if the vector has a new owner, its old allocation has been deallocated. After `Err`, all new allocations have been deallocated. -/
def ObeysHeap {α : Type} (P : Plat) (s : State) (c : HeapCall α) (o : Out α) : Prop :=
  match c.tree P s, o with
  | .ok r s', .ok r' m =>
    s'.mem = m ∧ r' = untagResult s' c r ∧ AfterHeap s s' (heapLoans s c) ∧ Owns s' (owner c r).1 (owner c r).2 ∧
    (∀ b, b < s.mem.nbuf → (∀ v, c.vec = some v → b ≠ s.home v.buf) → s'.freed b = s.freed b) ∧
    (∀ b, s.mem.nbuf ≤ b → b < m.nbuf → b ≠ s'.home (owner c r).1.buf → Freed s' b) ∧
    (s.mem.nbuf ≤ s'.home (owner c r).1.buf ∧ (∀ v, c.vec = some v → Freed s' (s.home v.buf)) ∨ ∃ v, c.vec = some v ∧ (owner c r).1.buf = v.buf)
  | .err s', .err m =>
    s'.mem = m ∧ AfterCall s s' (heapLoans s c) ∧ c.vec = none ∧ ∀ b, s.mem.nbuf ≤ b → b < m.nbuf → Freed s' b
  | .panic, .panic => True
  | _, _ => False

/-- The end of the scope of a result. -/
def dropOwned : Owned → BProg Unit
  | .bytes b | .str b => drop_box b
  | .vec v | .string v => drop_vec v

/-- The end of the scope of what a call returned, or of the vector it was given. -/
def dropResult : {α : Type} → HeapCall α → α → BProg Unit
  | _, .base64Encode .., r | _, .base64Decode .., r | _, .base32Encode .., r | _, .base32Decode .., r | _, .hexEncode .., r | _, .hexDecode .., r => dropOwned r
  | _, .base64EncodeAppend .., r | _, .base32EncodeAppend .., r | _, .hexEncodeAppend .., r | _, .forgiving .., r => drop_vec r
  | _, .base64DecodeAppend .., r | _, .base32DecodeAppend .., r | _, .hexDecodeAppend .., r => drop_vec r.1

end Simd.Tree
