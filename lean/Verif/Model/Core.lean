/-
Bytes, memory and programs.

This file fixes the execution model in which all Rust functions of /repo are transcribed:
raw pointer code (`vsimd::tools::{read, write}` crates/vsimd/src/tools.rs:44-53, `ptr.add`, `ptr.sub`,
`read_unaligned`, `write_unaligned`, `copy_nonoverlapping`), `Result` errors, panics and undefined behaviour.
-/
namespace Simd

/-- A `u8`. -/
abbrev Byte := BitVec 8

/-- One memory cell (`MaybeUninit<u8>`); `none` is uninitialised memory. -/
abbrev Cell := Option Byte

/-- A raw pointer `*const u8` / `*mut u8`: an allocation and a byte offset in it.
Simplification: no addresses, so pointers into different allocations are never comparable. -/
structure Ptr where
  buf : Nat
  off : Nat
deriving DecidableEq, Repr

/-- The pointer value of `p.add(n)`; the in-bounds obligation is the separate command `padd`. -/
def Ptr.add (p : Ptr) (n : Nat) : Ptr := ⟨p.buf, p.off + n⟩

/-- Memory: `nbuf` allocations so far, their sizes and their cells. -/
structure Mem where
  nbuf : Nat
  size : Nat → Nat
  cell : Nat → Nat → Cell

/-- The `n` cells from offset `o` of allocation `b`, if all are initialised. -/
def Mem.readFrom (m : Mem) (b o : Nat) : Nat → Option (List Byte)
  | 0 => some []
  | n + 1 =>
    match m.cell b o, m.readFrom b (o + 1) n with
    | some x, some xs => some (x :: xs)
    | _, _ => none

/-- Reading `n` bytes at `p`: `none` if out of bounds or uninitialised. -/
def Mem.read (m : Mem) (p : Ptr) (n : Nat) : Option (List Byte) :=
  if p.off + n ≤ m.size p.buf then m.readFrom p.buf p.off n else none

/-- Memory after overwriting the bytes at `p` with `bs`. -/
def Mem.write (m : Mem) (p : Ptr) (bs : List Byte) : Mem :=
  { m with
    cell := fun b i =>
      if b = p.buf ∧ p.off ≤ i ∧ i < p.off + bs.length then bs[i - p.off]? else m.cell b i }

/-- Memory after a fresh allocation of `n` uninitialised bytes; its id is the old `nbuf`. -/
def Mem.alloc (m : Mem) (n : Nat) : Mem :=
  { nbuf := m.nbuf + 1
    size := fun b => if b = m.nbuf then n else m.size b
    cell := fun b i => if b = m.nbuf then none else m.cell b i }

/-- Programs over memory. `err` is a Rust `Err(Error)` propagated by `?`, `panic` any panic,
`ub` undefined behaviour. -/
inductive Prog (α : Type) : Type where
  | pure (a : α)
  | err
  | panic
  | ub
  | load (p : Ptr) (n : Nat) (k : List Byte → Prog α)
  | store (p : Ptr) (bs : List Byte) (k : Prog α)
  | chk (p : Ptr) (k : Prog α)
  | alloc (n : Nat) (k : Nat → Prog α)

namespace Prog

def bind {α β : Type} : Prog α → (α → Prog β) → Prog β
  | .pure a, f => f a
  | .err, _ => .err
  | .panic, _ => .panic
  | .ub, _ => .ub
  | .load p n k, f => .load p n (fun bs => (k bs).bind f)
  | .store p bs k, f => .store p bs (k.bind f)
  | .chk p k, f => .chk p (k.bind f)
  | .alloc n k, f => .alloc n (fun b => (k b).bind f)

instance : Monad Prog where
  pure := Prog.pure
  bind := Prog.bind

/-- Turns a propagated `Err` into a value: `match f() { Ok(a) => Some(a), Err(_) => None }`. -/
def attempt {α : Type} : Prog α → Prog (Option α)
  | .pure a => .pure (some a)
  | .err => .pure none
  | .panic => .panic
  | .ub => .ub
  | .load p n k => .load p n (fun bs => (k bs).attempt)
  | .store p bs k => .store p bs k.attempt
  | .chk p k => .chk p k.attempt
  | .alloc n k => .alloc n (fun b => (k b).attempt)

end Prog

/-- Outcome of running a program. -/
inductive Out (α : Type) : Type where
  | ok (a : α) (m : Mem)
  | err (m : Mem)
  | panic
  | ub

/-- Execution. A load outside an allocation or of an uninitialised cell, a store outside an
allocation and an out-of-bounds pointer are undefined behaviour. -/
def Prog.run {α : Type} : Prog α → Mem → Out α
  | .pure a, m => .ok a m
  | .err, m => .err m
  | .panic, _ => .panic
  | .ub, _ => .ub
  | .load p n k, m =>
    match m.read p n with
    | some bs => (k bs).run m
    | none => .ub
  | .store p bs k, m => if p.off + bs.length ≤ m.size p.buf then k.run (m.write p bs) else .ub
  | .chk p k, m => if p.off ≤ m.size p.buf then k.run m else .ub
  | .alloc n k, m => (k m.nbuf).run (m.alloc n)

/-! ### Primitive commands -/

/-- `ensure!(b)` (crates/*/src/error.rs): `if !b { return Err(Error::new()) }`. -/
def ensure (b : Bool) : Prog Unit := if b then pure () else .err

/-- `assert!(b)`. -/
def assert (b : Bool) : Prog Unit := if b then pure () else .panic

/-- A computation that may panic but does not touch memory (vector code, checked arithmetic). -/
def liftO {α : Type} : Option α → Prog α
  | some a => pure a
  | none => .panic

/-- Pointer arithmetic obligation of `p.add(n)`: the result stays inside or one past the allocation. -/
def padd (p : Ptr) (n : Nat) : Prog Unit := .chk (p.add n) (.pure ())

/-- `p.sub(n)`. -/
def psub (p : Ptr) (n : Nat) : Prog Ptr :=
  if n ≤ p.off then pure ⟨p.buf, p.off - n⟩ else .ub

/-- `p.offset_from(base) as usize` on `u8` pointers: undefined behaviour for different allocations; a negative result, which the cast would
turn into a huge number, is a panic. -/
def offset_from (p base : Ptr) : Prog Nat :=
  if p.buf = base.buf then (if base.off ≤ p.off then pure (p.off - base.off) else .panic) else .ub

/-- Unaligned load of `n` bytes. -/
def loadBytes (p : Ptr) (n : Nat) : Prog (List Byte) := .load p n .pure

/-- Unaligned store of bytes. -/
def storeBytes (p : Ptr) (bs : List Byte) : Prog Unit := .store p bs (.pure ())

/-- `vsimd::tools::read(base, offset)` (crates/vsimd/src/tools.rs:44-46). -/
def rd (p : Ptr) (i : Nat) : Prog Byte :=
  .load (p.add i) 1 fun bs => .pure (bs.headD 0)

/-- `vsimd::tools::write(base, offset, value)` (crates/vsimd/src/tools.rs:49-51). -/
def wrt (p : Ptr) (i : Nat) (x : Byte) : Prog Unit := .store (p.add i) [x] (.pure ())

/-- `read(table, i)` where `table` points to a static array: out of range is UB. -/
def tread (t : List Byte) (i : Nat) : Prog Byte :=
  match t[i]? with
  | some y => pure y
  | none => .ub

/-- `let mut i = a; while i < a + n { f(i); i += 1 }`. -/
def forFrom (f : Nat → Prog Unit) (i : Nat) : Nat → Prog Unit
  | 0 => pure ()
  | n + 1 => do f i; forFrom f (i + 1) n

/-- The same loop with mutable locals `s`. -/
def foldFrom {σ : Type} (f : Nat → σ → Prog σ) (i : Nat) : Nat → σ → Prog σ
  | 0, s => pure s
  | n + 1, s => do let s ← f i s; foldFrom f (i + 1) n s

/-- A slice `&[u8]` / `&mut [u8]` / `Out<[u8]>`: pointer and length. Safe Rust guarantees that the
slice lies inside its allocation; pointers derived from it may not leave it, so in the theorems the
slice is its whole allocation. -/
structure Slice where
  ptr : Ptr
  len : Nat
deriving DecidableEq, Repr

/-- A memory consisting of the given buffers (ids 0, 1, ...). -/
def Mem.ofBufs (bufs : List (List Cell)) : Mem where
  nbuf := bufs.length
  size := fun b => (bufs.getD b []).length
  cell := fun b i => ((bufs.getD b [])[i]?).join

/-- Target platform: width of `usize` (16, 32 or 64 in practice). -/
structure Plat where
  bits : Nat
  hbits : 16 ≤ bits

/-- `usize::MAX`. -/
def Plat.usizeMax (P : Plat) : Nat := 2 ^ P.bits - 1
/-- `isize::MAX`, the largest size of any Rust allocation or slice. -/
def Plat.isizeMax (P : Plat) : Nat := 2 ^ (P.bits - 1) - 1

/-- `a + b` on `usize`; overflow is a panic (debug profile; in release it would wrap). -/
def Plat.addU (P : Plat) (a b : Nat) : Option Nat := if a + b ≤ P.usizeMax then some (a + b) else none
/-- `a * b` on `usize`; overflow is a panic (debug profile; in release it would wrap). -/
def Plat.mulU (P : Plat) (a b : Nat) : Option Nat := if a * b ≤ P.usizeMax then some (a * b) else none

end Simd
