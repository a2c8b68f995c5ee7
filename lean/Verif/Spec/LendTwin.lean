import Verif.Spec.LendPlain
/-
When programs with references have the same on two machines.
-/
namespace Simd.Lend
open Borrow Spec Client

/-- The type and the length of what a variable holds. -/
def kind : Owned → EncodeTy × Nat
  | .bytes b => (.bytes, b.len)
  | .str b => (.str, b.len)
  | .vec v => (.vec, v.len)
  | .string v => (.string, v.len)

namespace Plain

/-- The types and lengths of what variables hold: neither addresses nor capacities. -/
def kinds (p : Plain) (x : Nat) : Option (EncodeTy × Nat) := (p.vars x).map kind

/-- The live references without their addresses: offset, length, type and the variable whose memory they point to. -/
def shapes (p : Plain) (r : Nat) : Option Ref := (p.refs r).map fun ρ => { ρ with tag := 0 }

/-- Byte `i` of the memory of variable `x`. -/
def byte (p : Plain) (x i : Nat) : Option Byte := (p.vars x).bind fun o => p.mem.cell (Spec.ownerOf o).1.buf i

end Plain

/-- Byte `i` of the memory of variable `x` is initialised as the types say: it is in the content of the variable, or behind a live reference to initialised bytes. -/
def Known (kinds : Nat → Option (EncodeTy × Nat)) (shapes : Nat → Option Ref) (x i : Nat) : Prop :=
  (∃ ty n, kinds x = some (ty, n) ∧ i < n) ∨ ∃ r ρ, shapes r = some ρ ∧ ρ.owner = x ∧ ρ.init = true ∧ ρ.off ≤ i ∧ i < ρ.off + ρ.len

/-- Two worlds, of different machines, in which a program has the same: variables of the same types and lengths, live references to the same parts of them, and the same bytes in all that can be read. -/
structure Twin (w w' : World) : Prop where
  kinds : w.plain.kinds = w'.plain.kinds
  shapes : w.plain.shapes = w'.plain.shapes
  bytes : ∀ x i, Known w.plain.kinds w.plain.shapes x i → w.plain.byte x i = w'.plain.byte x i

/-- The call without its implementation. -/
def anyExt : ExtCall → ExtCall
  | .parse _ _ src => .parse none none src
  | .parseSimple _ src => .parseSimple none src
  | .parseHyphenated _ src => .parseHyphenated none src
  | .formatSimple _ case src => .formatSimple none case src
  | .formatHyphenated _ case src => .formatHyphenated none case src

/-- The step as it is in the source of the program: the implementations, the number of threads and what depends on the allocator are not in it. -/
def source : Op → Op
  | .call c keep => .call (anyImpl c) keep
  | .par _ _ config src dst keep => .par 0 none config src dst keep
  | .heap x c => .heap x (anyImplHeap c)
  | .new x text bs _ => .new x text bs 0
  | .ext c => .ext (anyExt c)
  | op => op

/-- The step leaves nothing open: it is not a decoding of slices that fails, or a forgiving one, after which the rest of the destination is not specified. -/
def Exact (w : World) : Op → Prop
  | .call c _ => ∀ xs res, xs.length = (input c).2 → w.Bytes (input c).1 xs → CallMeans xs c.exclusive.2 res c → touched xs c.exclusive.2 res c ≤ (res.getD []).length
  | _ => True

/-- The runs of a program on a machine in which no step leaves anything open: what it got to know and the world it is in. The program says what is in the source of its steps; the machine adds the
implementations that it uses, capacities and numbers of threads. -/
inductive Ported (M : Machine) (p : Program) : List Seen → World → Prop where
  | start : Ported M p [] .start
  | step {h : List Seen} {w w' : World} {op : Op} {v : Seen} : Ported M p h w → p h = some (source op) → Legal M w op → Exact w op → Shows M.P w op v (.ok w') → Ported M p (h ++ [v]) w'

end Simd.Lend
