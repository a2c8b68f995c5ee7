import Verif.Model.Core
/-
References and their aliasing rules: Stacked Borrows (Jung, Dang, Kang, Dreyer, POPL 2020), as Miri implements them.

Every byte of memory has a stack of items, the top one first. A pointer carries a tag; an access is allowed if the stack has an item with this tag and a permission for the
access, and takes away the items above that are in conflict with it. Creating a reference, or a raw pointer from a reference, makes a new tag with an item of its own
("retag"). References passed to a function are protected until it returns: taking away a protected item is undefined behaviour.

A tagged pointer is a `Ptr` whose `buf` is the tag; `State.home` says to which allocation a tag belongs. So a program of type `Prog` that gets tagged pointers
works on them as it does on plain ones, and its pointer arithmetic keeps the tag.

Simplifications: no `UnsafeCell` (the crates have none in the memory they are given), deallocation only in Verif/Model/BorrowHeap.lean, and a program's comparisons of allocations (`offset_from`) compare tags,
which is stricter than Rust.
-/
namespace Simd.Borrow

/-- Permissions of an item; `disabled` is what a read leaves of a `unique` above it. -/
inductive Perm where
  | unique | sharedRW | sharedRO | disabled
deriving DecidableEq, Repr

/-- An item; `prot` is the call that protects it. -/
structure Item where
  perm : Perm
  tag : Nat
  prot : Option Nat
deriving DecidableEq, Repr

/-- The stack of one byte, top first. -/
abbrev Stack := List Item

/-- A read with tag `t`: the topmost item with this tag that is not disabled allows it; every `unique` above is disabled. -/
def Stack.read (t : Nat) : Stack → Option Stack
  | [] => none
  | it :: st =>
    if it.tag = t ∧ it.perm ≠ .disabled then some (it :: st)
    else if it.perm = .unique then
      if it.prot.isSome then none else (Stack.read t st).map ({ it with perm := .disabled } :: ·)
    else (Stack.read t st).map (it :: ·)

/-- A write with tag `t`: the topmost item with this tag that is `unique` or `sharedRW` allows it; all items above are removed, except, if it is `sharedRW`, the `sharedRW` items
right above it. -/
def Stack.write (t : Nat) : Stack → Option Stack
  | [] => none
  | it :: st =>
    if it.tag = t ∧ (it.perm = .unique ∨ it.perm = .sharedRW) then some (it :: st)
    else match Stack.write t st with
      | none => none
      | some st' =>
        if it.perm = .sharedRW ∧ st'.head?.map Item.perm = some .sharedRW ∧ st' = st then some (it :: st)
        else if it.prot.isSome then none else some st'

/-- A new `sharedRW` item for a raw pointer made from tag `t`: it is put right above the item that would allow a write, and the `sharedRW` items right above that one. -/
def Stack.addRaw (t : Nat) (new : Item) : Stack → Option Stack
  | [] => none
  | it :: st =>
    if it.tag = t ∧ (it.perm = .unique ∨ it.perm = .sharedRW) then some (new :: it :: st)
    else match Stack.addRaw t new st with
      | none => none
      | some st' =>
        if it.perm = .sharedRW ∧ st.head?.map Item.perm = some .sharedRW ∧ st' = new :: st then some (new :: it :: st) else some (it :: st')

/-- Memory with borrow stacks: `next` is the first unused tag, `frame` the number of calls that have not returned. -/
structure State where
  mem : Mem
  home : Nat → Nat
  next : Nat
  frame : Nat
  stack : Nat → Nat → Stack

/-- Outcome of a program with borrow stacks. `ub` is any undefined behaviour, violations of the aliasing rules included. -/
inductive Result (α : Type) : Type where
  | ok (a : α) (s : State)
  | err (s : State)
  | panic
  | ub

/-- A program with borrow stacks. -/
def BProg (α : Type) : Type := State → Result α

def BProg.bind {α β : Type} (x : BProg α) (f : α → BProg β) : BProg β := fun s =>
  match x s with
  | .ok a s' => f a s'
  | .err s' => .err s'
  | .panic => .panic
  | .ub => .ub

instance : Monad BProg where
  pure a := fun s => .ok a s
  bind := BProg.bind

/-- The stacks after `f` has been done to that of each of the `n` bytes at `p`, if it is possible for all of them. -/
def State.touch (s : State) (f : Stack → Option Stack) (p : Ptr) (n : Nat) : Option (Nat → Nat → Stack) :=
  if ∀ i, i < n → (f (s.stack (s.home p.buf) (p.off + i))).isSome then
    some fun b i => if b = s.home p.buf ∧ p.off ≤ i ∧ i < p.off + n then (f (s.stack b i)).getD [] else s.stack b i
  else none

/-- Execution of a program whose pointers are tagged: as `Prog.run`, and every access is one in the sense of the aliasing rules. The owner of a new allocation has the only tag. -/
def prog {α : Type} : Prog α → BProg α
  | .pure a, s => .ok a s
  | .err, s => .err s
  | .panic, _ => .panic
  | .ub, _ => .ub
  | .load p n k, s =>
    match s.touch (Stack.read p.buf) p n, s.mem.read ⟨s.home p.buf, p.off⟩ n with
    | some st, some bs => prog (k bs) { s with stack := st }
    | _, _ => .ub
  | .store p bs k, s =>
    match s.touch (Stack.write p.buf) p bs.length with
    | some st =>
      if p.off + bs.length ≤ s.mem.size (s.home p.buf) then prog k { s with stack := st, mem := s.mem.write ⟨s.home p.buf, p.off⟩ bs } else .ub
    | none => .ub
  | .chk p k, s => if p.off ≤ s.mem.size (s.home p.buf) then prog k s else .ub
  | .alloc n k, s =>
    prog (k s.next) { s with
      mem := s.mem.alloc n
      home := fun t => if t = s.next then s.mem.nbuf else s.home t
      next := s.next + 1
      stack := fun b i => if b = s.mem.nbuf then [⟨.unique, s.next, none⟩] else s.stack b i }

/-- What is made from a pointer: `&mut`, `&`, `*mut` (from `&mut`), `*const` (from `&`). -/
inductive Kind where
  | mut | shared | rawMut | rawConst
deriving DecidableEq, Repr

/-- The effect of a retag on the stack of a byte: `&mut` is a write followed by a new `unique` item, `&` and `*const` a read followed by a new `sharedRO` item,
`*mut` only a new item. -/
def Kind.apply (k : Kind) (t new : Nat) (prot : Option Nat) (st : Stack) : Option Stack :=
  match k with
  | .mut => (st.write t).map (⟨.unique, new, prot⟩ :: ·)
  | .shared | .rawConst => (st.read t).map (⟨.sharedRO, new, prot⟩ :: ·)
  | .rawMut => st.addRaw t ⟨.sharedRW, new, prot⟩

/-- Makes a reference or raw pointer to the `n` bytes at `p`. -/
def retagWith (prot : Option Nat) (k : Kind) (p : Ptr) (n : Nat) : BProg Ptr := fun s =>
  match s.touch (k.apply p.buf s.next prot) p n with
  | some st => .ok ⟨s.next, p.off⟩ { s with stack := st, next := s.next + 1, home := fun t => if t = s.next then s.home p.buf else s.home t }
  | none => .ub

/-- An expression `&*p`, `&mut *p` or `p as *mut _`. -/
def retag (k : Kind) (p : Ptr) (n : Nat) : BProg Ptr := retagWith none k p n

/-- A reference as argument, at the start of the called function: a reference of its own, protected until the function returns. -/
def arg (k : Kind) (p : Ptr) (n : Nat) : BProg Ptr := fun s => retagWith (some s.frame) k p n s

/-- The end of the protection by call `f`. -/
def Item.release (f : Nat) (it : Item) : Item := if it.prot = some f then { it with prot := none } else it

/-- The state after the innermost call has returned. -/
def State.ret (s : State) : State := { s with frame := s.frame - 1, stack := fun b i => (s.stack b i).map (Item.release s.frame) }

/-- A function call. -/
def call {α : Type} (body : BProg α) : BProg α := fun s =>
  match body { s with frame := s.frame + 1 } with
  | .ok a s' => .ok a s'.ret
  | .err s' => .err s'.ret
  | .panic => .panic
  | .ub => .ub

end Simd.Borrow
