import Verif.Spec.BorrowHeap
/-
Programs that use the crates: variables that own memory, and the operations of safe Rust on them.
-/
namespace Simd.Client
open Borrow Spec

/-- The variables of a program that own memory (`Box<[u8]>`, `Box<str>`, `Vec<u8>`, `String`), by number, and the memory with borrow stacks. -/
structure World where
  vars : Nat → Option Owned
  st : State

/-- One step of a program. In the calls, the allocation of a pointer is the number of the variable that the slice is taken from, and the offset is that in its bytes. -/
inductive Op : Type 1 where
  /-- A new `Vec<u8>`, or `String` if `text`, of the given content and capacity. -/
  | new (x : Nat) (text : Bool) (bs : List Byte) (cap : Nat)
  /-- Reading `n` bytes of variable `x`. -/
  | read (x off n : Nat)
  /-- Writing bytes of variable `x`. -/
  | write (x off : Nat) (bs : List Byte)
  /-- A function that is given slices (base64-simd, base32-simd, hex-simd, uuid-simd, unicode-simd: `Call`). -/
  | call {α : Type} (c : Call α)
  /-- A function that allocates its result, which variable `x` then holds, or appends to the vector or string that variable `x` holds (base64-simd, base32-simd, hex-simd: `HeapCall`). -/
  | heap (x : Nat) {α : Type} (c : HeapCall α)
  /-- What variable `x` holds is moved to variable `y`. -/
  | move (x y : Nat)
  /-- `Vec::truncate`, `Vec::clear`. -/
  | truncate (x n : Nat)
  /-- `String::into_bytes`, `str::into_boxed_bytes`: what variable `x` holds is no longer text. -/
  | intoBytes (x : Nat)
  /-- The end of the scope of variable `x`. -/
  | drop (x : Nat)

/-- How a step ends: the program goes on, it panics (simplified: it then does nothing more), or its behaviour is undefined. -/
inductive End where
  | ok (w : World)
  | panic
  | ub

/-- The tag of the pointer in a variable; that of a variable that holds nothing is one that has not been given out. -/
def World.tag (w : World) (x : Nat) : Nat :=
  match w.vars x with
  | some o => (ownerOf o).1.buf
  | none => w.st.next

/-- The call with the pointers that the variables hold. (Simplified: the slices are made from them directly.) -/
def World.args (w : World) {α : Type} (c : Call α) : Call α := untag { w.st with home := w.tag } c

/-- The call with the pointers that the variables hold. -/
def World.argsHeap (w : World) {α : Type} (c : HeapCall α) : HeapCall α := untagHeap { w.st with home := w.tag } c

/-- What the variable holds after the call, where `old` is what it held before. -/
def result (old : Option Owned) : {α : Type} → HeapCall α → α → Owned
  | _, .base64Encode .., r | _, .base64Decode .., r | _, .base32Encode .., r | _, .base32Decode .., r | _, .hexEncode .., r | _, .hexDecode .., r => r
  | _, .base64EncodeAppend .., r | _, .base32EncodeAppend .., r | _, .hexEncodeAppend .., r =>
    match old with
    | some (.string _) => .string r
    | _ => .vec r
  | _, .forgiving .., r => .vec r
  | _, .base64DecodeAppend .., r | _, .base32DecodeAppend .., r | _, .hexDecodeAppend .., r => .vec r.1

/-- The content and capacity of a new vector. -/
def create (bs : List Byte) (cap : Nat) : Prog Nat :=
  .alloc cap fun b => do
    storeBytes ⟨b, 0⟩ bs
    pure b

/-- The world after a step; an `Err` is a value like others. -/
def World.after (w : World) {α : Type} (r : Result α) (f : α → Nat → Option Owned) : End :=
  match r with
  | .ok a s => .ok ⟨f a, s⟩
  | .err s => .ok ⟨w.vars, s⟩
  | .panic => .panic
  | .ub => .ub

/-- The variables after an assignment. -/
def World.set (w : World) (x : Nat) (o : Option Owned) : Nat → Option Owned := fun y => if y = x then o else w.vars y

/-- A vector with its length reduced to `n`, if it is greater; the allocation stays. -/
def shorter (n : Nat) : Owned → Owned
  | .vec v => .vec { v with len := min n v.len }
  | o => o

/-- The same memory, not as text. -/
def intoBytes : Owned → Owned
  | .str b => .bytes b
  | .string v => .vec v
  | o => o

/-- Execution of a step. -/
def exec (P : Plat) (w : World) : Op → End
  | .new x text bs cap => w.after (prog (create bs cap) w.st) fun b => w.set x (some (if text then .string ⟨b, bs.length, cap⟩ else .vec ⟨b, bs.length, cap⟩))
  | .read x off n => w.after (prog (loadBytes ⟨w.tag x, off⟩ n) w.st) fun _ => w.vars
  | .write x off bs => w.after (prog (storeBytes ⟨w.tag x, off⟩ bs) w.st) fun _ => w.vars
  | .call c => w.after ((w.args c).borrow P w.st) fun _ => w.vars
  | .heap x c => w.after ((w.argsHeap c).borrow P w.st) fun r => w.set x (some (result (w.vars x) c r))
  | .move x y => .ok ⟨fun z => if z = y then w.vars x else if z = x then none else w.vars z, w.st⟩
  | .truncate x n => .ok ⟨w.set x ((w.vars x).map (shorter n)), w.st⟩
  | .intoBytes x => .ok ⟨w.set x ((w.vars x).map intoBytes), w.st⟩
  | .drop x =>
    match w.vars x with
    | some o => w.after (dropOwned o w.st) fun _ => w.set x none
    | none => .ub

/-- The start: no variables and no memory. -/
def World.start : World := ⟨fun _ => none, ⟨⟨0, fun _ => 0, fun _ _ => none⟩, id, 0, 0, fun _ _ => []⟩⟩

end Simd.Client
