import Verif.Model.Core
/-
Owned buffers: `vsimd::tools` allocation helpers and the part of `alloc::vec::Vec` the crates use.
-/
namespace Simd

/-- `alloc_uninit_bytes(len)` (crates/vsimd/src/tools.rs:18-32): outside `0 < len <= isize::MAX` undefined behaviour.
Allocation failure (`handle_alloc_error`, abort) is not modelled. -/
def alloc_uninit_bytes (P : Plat) (len : Nat) : Prog Slice :=
  if 0 < len ∧ len ≤ P.isizeMax then .alloc len fun b => .pure ⟨⟨b, 0⟩, len⟩ else .ub

/-- `assume_init(b)` (crates/vsimd/src/tools.rs:37-41): undefined behaviour unless every byte is initialised. -/
def assume_init (b : Slice) : Prog Slice := do
  let _ ← loadBytes b.ptr b.len
  pure b

/-- `Box::from([])` / `Box::from("")`: an empty box (modelled as an allocation of size 0). -/
def box_empty : Prog Slice := .alloc 0 fun b => .pure ⟨⟨b, 0⟩, 0⟩

/-- A `Vec<u8>`: its allocation `buf` of `cap` bytes, of which `len` are in use. -/
structure RVec where
  buf : Nat
  len : Nat
  cap : Nat
deriving DecidableEq, Repr

/-- The initialised part of a `Vec<u8>`. -/
def RVec.slice (v : RVec) : Slice := ⟨⟨v.buf, 0⟩, v.len⟩

/-- `Vec::from(Box<[u8]>)`, `String::from(Box<str>)`, `into_boxed_bytes`: same allocation. -/
def RVec.ofBox (b : Slice) : RVec := ⟨b.ptr.buf, b.len, b.len⟩

/-- `Vec::reserve_exact(additional)` of the standard library: reallocates when the spare capacity is too small;
the allocator may round the new capacity up by any `extra`; panics on capacity overflow.
Simplification: the old allocation is not freed. -/
def RVec.reserve_exact (P : Plat) (extra : Nat) (v : RVec) (additional : Nat) : Prog RVec :=
  if additional ≤ v.cap - v.len then pure v
  else if v.len + additional + extra ≤ P.isizeMax then do
    let old ← loadBytes ⟨v.buf, 0⟩ v.len
    .alloc (v.len + additional + extra) fun b => do
      storeBytes ⟨b, 0⟩ old
      pure ⟨b, v.len, v.len + additional + extra⟩
  else .panic

/-- `Vec::set_len(new_len)`: undefined behaviour unless `new_len <= capacity` and the elements are initialised. -/
def RVec.set_len (v : RVec) (n : Nat) : Prog RVec :=
  if n ≤ v.cap then do
    let _ ← loadBytes ⟨v.buf, 0⟩ n
    pure { v with len := n }
  else .ub

/-- The cells of a slice. -/
def Mem.view (m : Mem) (s : Slice) : List Cell := (List.range s.len).map fun i => m.cell s.ptr.buf (s.ptr.off + i)

end Simd
