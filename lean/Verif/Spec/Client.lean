import Verif.Model.Client
import Verif.Props.ConcurrentAlloc
/-
Which steps the compiler accepts in safe Rust, and what must always hold.
-/
namespace Simd.Client
open Borrow Spec

/-- The number of bytes a variable holds, without spare capacity. -/
def len : Owned → Nat
  | .bytes b | .str b => b.len
  | .vec v | .string v => v.len

/-- The variable is a `Box<str>` or `String`. -/
def IsText : Owned → Prop
  | .str _ | .string _ => True
  | .bytes _ | .vec _ => False

/-- The slice of `n` bytes at `p` is in the content of a variable: the slices that `&` can be taken of. -/
def World.Holds (w : World) (p : Ptr) (n : Nat) : Prop := ∃ o, w.vars p.buf = some o ∧ p.off + n ≤ len o

/-- The call changes its argument in place, and so reads it. -/
def InPlace {α : Type} : Call α → Prop
  | .base64Inplace .. | .forgivingInplace .. | .base32Inplace .. | .hexInplace .. | .swapInplace .. => True
  | _ => False

/-- The call appends text; it is given a vector or a string. -/
def AppendsText {α : Type} : HeapCall α → Prop
  | .base64EncodeAppend .. | .base32EncodeAppend .. | .hexEncodeAppend .. => True
  | _ => False

/-- What safe Rust guarantees about a step: variables that are used hold something; slices are inside the content, or, to be written only, inside the capacity
(`Vec::spare_capacity_mut`); what is in a `str` is not changed through slices; what is lent with `&mut` is not lent otherwise at the same time; a new result goes to a variable of its own, which holds
nothing. The implementations that functions use are ones the machine may be given. -/
def Legal (M : Machine) (w : World) : Op → Prop
  | .new x text bs cap => w.vars x = none ∧ bs.length ≤ cap ∧ cap ≤ M.P.isizeMax ∧ (text = true → ValidUtf8 bs)
  | .read x off n => w.Holds ⟨x, off⟩ n
  | .write x off bs => ∃ o, w.vars x = some o ∧ off + bs.length ≤ len o ∧ ¬ IsText o
  | .call c => c.RunsOn M ∧ w.Holds c.shared.1 c.shared.2 ∧ (∃ o, w.vars c.exclusive.1.buf = some o ∧ c.exclusive.1.off + c.exclusive.2 ≤ (ownerOf o).2 ∧ (0 < c.exclusive.2 → ¬ IsText o)) ∧
      (InPlace c → w.Holds c.exclusive.1 c.exclusive.2) ∧ NoOverlap c.shared.1 c.shared.2 c.exclusive.1 c.exclusive.2
  | .heap x c => c.RunsOn M ∧ w.Holds c.shared.ptr c.shared.len ∧
    match c.vec with
    | none => w.vars x = none
    | some v => v.buf = x ∧ c.shared.ptr.buf ≠ x ∧ ∃ t, w.vars x = some (.vec ⟨t, v.len, v.cap⟩) ∨ AppendsText c ∧ w.vars x = some (.string ⟨t, v.len, v.cap⟩)
  | .move x y => (∃ o, w.vars x = some o) ∧ w.vars y = none
  | .truncate x _ => ∃ v, w.vars x = some (.vec v)
  | .intoBytes x => ∃ o, w.vars x = some o
  | .drop x => ∃ o, w.vars x = some o

/-- The variables that a step can change: those that it writes, or lends with `&mut` a slice of that is not empty, or gives away. -/
def Changes (y : Nat) : Op → Prop
  | .read .. => False
  | .new x .. | .write x .. | .heap x _ | .truncate x _ | .intoBytes x | .drop x => y = x
  | .move x x' => y = x ∨ y = x'
  | .call c => y = c.exclusive.1.buf ∧ 0 < c.exclusive.2

/-- The variables outside `X` hold what they held: the same memory, with the same bytes. -/
def Keeps (w w' : World) (X : Nat → Prop) : Prop :=
  ∀ y o, ¬ X y → w.vars y = some o → w'.vars y = some o ∧ ∀ ys, Reads w.st.mem (place w.st (ownerOf o).1) ys → Reads w'.st.mem (place w'.st (ownerOf o).1) ys

/-- The value `o` of a variable has the bytes `ys`. -/
def World.Contains (w : World) (o : Owned) (ys : List Byte) : Prop := ys.length = len o ∧ Reads w.st.mem (place w.st (ownerOf o).1) ys

/-- The worlds a program can get into. -/
inductive Reaches (M : Machine) : World → Prop where
  | start : Reaches M .start
  | step {w w' : World} {op : Op} : Reaches M w → Legal M w op → exec M.P w op = .ok w' → Reaches M w'

/-- What a variable holds is valid: it owns its allocation, of at most `isize::MAX` bytes; its content is initialised, and UTF-8 if it is text. -/
structure Valid (P : Plat) (s : State) (o : Owned) : Prop where
  owns : Owns s (ownerOf o).1 (ownerOf o).2
  max : (ownerOf o).2 ≤ P.isizeMax
  content : ∃ ys, ys.length = len o ∧ Reads s.mem (place s (ownerOf o).1) ys ∧ (IsText o → ValidUtf8 ys)

end Simd.Client
