import Verif.Model.Core
/-
References and their aliasing rules: Tree Borrows (Villani, Hostert, Dreyer, Jung, PLDI 2025), as Miri implements them. These rules are an alternative to those of Verif/Model/Borrows.lean; Rust has not settled on
either.

Every reference has a tag. The tags of an allocation form a tree: a reference made from another one ("retag") is its child; a raw pointer has the tag of the reference it was made from. Every byte of the
allocation has a permission for every tag. An access through a tag is "local" for the tag and its ancestors and "foreign" for all other tags of the allocation, and changes the permissions of all of them, or
is undefined behaviour. References passed to a function are protected until it returns: disabling a protected tag is undefined behaviour.

A tagged pointer is a `Ptr` whose `buf` is the tag, as in Verif/Model/Borrows.lean.

Simplifications: no `UnsafeCell` (the crates have none in the memory they are given), and a program's comparisons of allocations (`offset_from`) compare tags, which is stricter than Rust.
-/
namespace Simd.Tree

/-- Permissions: `reserved` is a `&mut` that has not been written through (`true`: there was a foreign read while it was protected), `active` one that has, `frozen` is a `&`. -/
inductive Perm where
  | reserved (conflicted : Bool) | active | frozen | disabled
deriving DecidableEq, Repr

/-- The state of a byte for a tag; `acc`: the reference was made for this byte, or the byte was accessed through the tag or one of its descendants. -/
structure Cell where
  perm : Perm
  acc : Bool
deriving DecidableEq, Repr

/-- The permission after an access (`w`: a write, `loc`: local) for a tag that is protected or not; `none`: the access is not allowed. -/
def Perm.step (w loc prot : Bool) : Perm → Option Perm
  | .reserved c => match w, loc with
    | false, true => some (.reserved c)
    | true, true => if c && prot then none else some .active
    | false, false => some (.reserved (c || prot))
    | true, false => some .disabled
  | .active => match w, loc with
    | _, true => some .active
    | false, false => some (if prot then .disabled else .frozen)
    | true, false => some .disabled
  | .frozen => match w, loc with
    | false, _ => some .frozen
    | true, true => none
    | true, false => some .disabled
  | .disabled => if loc then none else some .disabled

/-- The state of a byte for a tag after an access. Disabling a protected tag is not allowed, if it was accessed. -/
def Cell.step (w loc prot : Bool) (c : Cell) : Option Cell :=
  match c.perm.step w loc prot with
  | some p => if p = .disabled ∧ prot ∧ c.acc then none else some ⟨p, c.acc || loc⟩
  | none => none

/-- Memory with borrow trees: `home t` is the allocation of tag `t`, `next` the first unused tag, `up t u` says that `u` is `t` or an ancestor of it, `guard` has the protected tags of each call that has not
returned, the innermost call first, `cell b i t` is the state of byte `i` of allocation `b` for `t`, and `freed b` says that allocation `b` has been deallocated. -/
structure State where
  mem : Mem
  home : Nat → Nat
  next : Nat
  up : Nat → Nat → Bool
  guard : List (List Nat)
  cell : Nat → Nat → Nat → Cell
  freed : Nat → Bool

/-- Tag `u` is protected. -/
def State.prot (s : State) (u : Nat) : Bool := s.guard.any fun l => l.contains u

/-- Tag `u` is one of allocation `b`. -/
def State.Has (s : State) (b u : Nat) : Prop := u < s.next ∧ s.home u = b

instance (s : State) (b u : Nat) : Decidable (s.Has b u) := inferInstanceAs (Decidable (_ ∧ _))

/-- What an access through tag `t` makes of the state of byte `i` of allocation `b` for tag `u`. -/
def State.step (s : State) (w : Bool) (t b i u : Nat) : Option Cell := (s.cell b i u).step w (s.up t u) (s.prot u)

/-- Outcome of a program with borrow trees. `ub` is any undefined behaviour, violations of the aliasing rules included. -/
inductive Result (α : Type) : Type where
  | ok (a : α) (s : State)
  | err (s : State)
  | panic
  | ub

/-- A program with borrow trees. -/
def BProg (α : Type) : Type := State → Result α

def BProg.bind {α β : Type} (x : BProg α) (f : α → BProg β) : BProg β := fun s =>
  match x s with
  | .ok a s' => f a s'
  | .err s' => .err s'
  | .panic => .panic
  | .ub => .ub

instance : Monad BProg where
  pure a := fun s => .ok a s
  bind := BProg.bind

/-- The states of the bytes after an access to the `n` bytes at `p`, if they are in the allocation, it has not been deallocated and the access is allowed. -/
def State.touch (s : State) (w : Bool) (p : Ptr) (n : Nat) : Option (Nat → Nat → Nat → Cell) :=
  if ∀ i, i < n → p.off + i < s.mem.size (s.home p.buf) ∧ s.freed (s.home p.buf) = false ∧ ∀ u, u < s.next → s.home u = s.home p.buf → (s.step w p.buf (s.home p.buf) (p.off + i) u).isSome then
    some fun b i u => if b = s.home p.buf ∧ p.off ≤ i ∧ i < p.off + n ∧ s.Has b u then (s.step w p.buf b i u).getD (s.cell b i u) else s.cell b i u
  else none

/-- Execution of a program whose pointers are tagged: as `Prog.run`, and every access is one in the sense of the aliasing rules. The owner of a new allocation has the only tag. -/
def prog {α : Type} : Prog α → BProg α
  | .pure a, s => .ok a s
  | .err, s => .err s
  | .panic, _ => .panic
  | .ub, _ => .ub
  | .load p n k, s =>
    match s.touch false p n, s.mem.read ⟨s.home p.buf, p.off⟩ n with
    | some c, some bs => prog (k bs) { s with cell := c }
    | _, _ => .ub
  | .store p bs k, s =>
    match s.touch true p bs.length with
    | some c =>
      if p.off + bs.length ≤ s.mem.size (s.home p.buf) then prog k { s with cell := c, mem := s.mem.write ⟨s.home p.buf, p.off⟩ bs } else .ub
    | none => .ub
  | .chk p k, s => if p.off ≤ s.mem.size (s.home p.buf) then prog k s else .ub
  | .alloc n k, s =>
    prog (k s.next) { s with
      mem := s.mem.alloc n
      home := fun t => if t = s.next then s.mem.nbuf else s.home t
      next := s.next + 1
      up := fun t u => if t = s.next then u = s.next else s.up t u
      cell := fun b i u => if u = s.next then ⟨.active, true⟩ else s.cell b i u
      freed := fun b => if b = s.mem.nbuf then false else s.freed b }

/-- What is made from a pointer: `&mut` or `&`. A raw pointer made from a reference has its tag. -/
inductive Kind where
  | mut | shared
deriving DecidableEq, Repr

/-- The permission that a new reference starts with. -/
def Kind.perm : Kind → Perm
  | .mut => .reserved false
  | .shared => .frozen

/-- Makes a reference to the `n` bytes at `p`: they are read through `p`. The new tag has its permission on the other bytes of the allocation as well. -/
def retagWith (prot : Bool) (k : Kind) (p : Ptr) (n : Nat) : BProg Ptr := fun s =>
  match s.touch false p n with
  | some c =>
    .ok ⟨s.next, p.off⟩ { s with
      home := fun t => if t = s.next then s.home p.buf else s.home t
      next := s.next + 1
      up := fun t u => if t = s.next then u = s.next || s.up p.buf u else s.up t u
      guard := match prot, s.guard with
        | true, l :: g => (s.next :: l) :: g
        | _, g => g
      cell := fun b i u => if u = s.next then ⟨k.perm, b = s.home p.buf ∧ p.off ≤ i ∧ i < p.off + n⟩ else c b i u }
  | none => .ub

/-- An expression `&*p` or `&mut *p`. -/
def retag (k : Kind) (p : Ptr) (n : Nat) : BProg Ptr := retagWith false k p n

/-- A reference as argument, at the start of the called function: a reference of its own, protected until the function returns. -/
def arg (k : Kind) (p : Ptr) (n : Nat) : BProg Ptr := retagWith true k p n

/-- Byte `i` of its allocation was accessed through tag `t`, so that it is accessed again when the protection of `t` ends. -/
def State.Used (s : State) (t b i : Nat) : Prop := b = s.home t ∧ i < s.mem.size b ∧ (s.cell b i t).acc = true

instance (s : State) (t b i : Nat) : Decidable (s.Used t b i) := inferInstanceAs (Decidable (_ ∧ _ ∧ _))

/-- Tag `u` of allocation `b` is not a descendant of `t`, so that it notices the end of the protection of `t`. -/
def State.Sees (s : State) (t b u : Nat) : Prop := s.Has b u ∧ (s.up u t = false ∨ u = t)

instance (s : State) (t b u : Nat) : Decidable (s.Sees t b u) := inferInstanceAs (Decidable (_ ∧ (_ ∨ _)))

/-- What the end of the protection of tag `t` makes of the state of byte `i` of allocation `b` for tag `u`: it is an access through `t`, a write if `t` is active. -/
def State.last (s : State) (t b i u : Nat) : Option Cell := s.step ((s.cell b i t).perm = .active) t b i u

/-- The end of the protection of tag `t`: an access through `t` to each byte that was accessed through it, that the descendants of `t` do not notice. -/
def State.release (s : State) (t : Nat) : Option State :=
  if ∀ i, i < s.mem.size (s.home t) → ∀ u, u < s.next → s.Used t (s.home t) i → s.Sees t (s.home t) u → (s.last t (s.home t) i u).isSome then
    some { s with cell := fun b i u => if s.Used t b i ∧ s.Sees t b u then (s.last t b i u).getD (s.cell b i u) else s.cell b i u }
  else none

/-- The protection of several tags ends. -/
def State.releaseAll : List Nat → State → Option State
  | [], s => some s
  | t :: ts, s => match s.release t with
    | some s' => State.releaseAll ts s'
    | none => none

/-- The state after the innermost call has returned. -/
def State.ret (s : State) : Option State := (s.releaseAll (s.guard.headD [])).map fun s => { s with guard := s.guard.tail }

/-- A function call. -/
def call {α : Type} (body : BProg α) : BProg α := fun s =>
  match body { s with guard := [] :: s.guard } with
  | .ok a s' => match s'.ret with
    | some s'' => .ok a s''
    | none => .ub
  | .err s' => match s'.ret with
    | some s'' => .err s''
    | none => .ub
  | .panic => .panic
  | .ub => .ub

end Simd.Tree
