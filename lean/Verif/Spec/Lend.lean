import Verif.Model.Lend
import Verif.Spec.Client
import Verif.Spec.CallMeans
import Verif.Spec.BorrowExt
/-
Which steps of programs with references the compiler accepts in safe Rust.

The rule of the borrow checker, byte by byte: a name may be used to read a byte while no `&mut` reference that was made later is live and covers the byte; it may be used to write it, or to make a `&mut`
reference to it, if it is a variable or a `&mut` reference, and while no reference at all that was made later is live and covers the byte. (A reference that was made later and is in conflict is always one
that was made from this name, directly or not. The compiler knows it by its lifetime, and does not go by bytes: it accepts fewer programs.)
-/
namespace Simd.Lend
open Borrow Spec

/-- The live reference covers byte `i` of allocation `b`. -/
def World.Covers (w : World) (ρ : Ref) (b i : Nat) : Prop := In ⟨w.st.home ρ.tag, ρ.off⟩ ρ.len b i

/-- No reference that was made after the one with tag `t` conflicts with reading the byte. -/
def World.NoMut (w : World) (t b i : Nat) : Prop := ∀ r ρ, w.refs r = some ρ → w.Covers ρ b i → ρ.excl = true → ρ.tag ≤ t

/-- No reference that was made after the one with tag `t` conflicts with writing the byte. -/
def World.NoRef (w : World) (t b i : Nat) : Prop := ∀ r ρ, w.refs r = some ρ → w.Covers ρ b i → ρ.tag ≤ t

/-- The `n` bytes at `p` are initialised as the types say: in the content of a variable, or behind a reference to initialised bytes. -/
def World.Inits (w : World) (p : Ptr) (n : Nat) : Prop :=
  (∃ o, w.vars p.buf = some o ∧ p.off + n ≤ Client.len o) ∨ ∃ ρ, w.refs p.buf = some ρ ∧ ρ.off ≤ p.off ∧ p.off + n ≤ ρ.off + ρ.len ∧ (0 < n → ρ.init = true)

/-- The `n` bytes at `p` can be read in safe Rust. -/
def World.CanRead (w : World) (p : Ptr) (n : Nat) : Prop := w.Inits p n ∧ ∀ b i, In (place w.st ⟨w.name p.buf, p.off⟩) n b i → w.NoMut (w.name p.buf) b i

/-- The `n` bytes at `p` can be written in safe Rust. -/
def World.CanWrite (w : World) (p : Ptr) (n : Nat) : Prop :=
  ((∃ o, w.vars p.buf = some o ∧ p.off + n ≤ (Spec.ownerOf o).2 ∧ (0 < n → ¬ Client.IsText o)) ∨ ∃ ρ, w.refs p.buf = some ρ ∧ ρ.off ≤ p.off ∧ p.off + n ≤ ρ.off + ρ.len ∧ (0 < n → ρ.excl = true)) ∧
  ∀ b i, In (place w.st ⟨w.name p.buf, p.off⟩) n b i → w.NoRef (w.name p.buf) b i

/-- The name is not in use. -/
def World.Unused (w : World) (k : Nat) : Prop := w.vars k = none ∧ w.refs k = none

/-- No reference to memory of the variable is live. -/
def World.NotLent (w : World) (x : Nat) : Prop := ∀ r ρ, w.refs r = some ρ → ρ.owner ≠ x

/-- Two slices have no byte in common. -/
def World.Apart (w : World) (p : Ptr) (n : Nat) (q : Ptr) (d : Nat) : Prop := NoOverlap (place w.st ⟨w.name p.buf, p.off⟩) n (place w.st ⟨w.name q.buf, q.off⟩) d

/-- What safe Rust guarantees about a call with slices. -/
structure World.CanCall (w : World) (M : Machine) {α : Type} (c : Call α) (keep : Option Nat) : Prop where
  runs : c.RunsOn M
  shared : w.CanRead c.shared.1 c.shared.2
  excl : w.CanWrite c.exclusive.1 c.exclusive.2
  inplace : Client.InPlace c → w.Inits c.exclusive.1 c.exclusive.2
  apart : w.Apart c.shared.1 c.shared.2 c.exclusive.1 c.exclusive.2
  keep : ∀ k, keep = some k → w.Unused k

/-- What safe Rust guarantees about a step. A variable is moved, dropped, changed as a whole or appended to only while no reference to its memory is live. -/
def Legal (M : Machine) (w : World) : Op → Prop
  | .new x text bs cap => w.Unused x ∧ bs.length ≤ cap ∧ cap ≤ M.P.isizeMax ∧ (text = true → ValidUtf8 bs)
  | .move x y => (∃ o, w.vars x = some o) ∧ w.NotLent x ∧ w.Unused y
  | .truncate x _ => (∃ v, w.vars x = some (.vec v)) ∧ w.NotLent x
  | .intoBytes x => (∃ o, w.vars x = some o) ∧ w.NotLent x
  | .drop x => (∃ o, w.vars x = some o) ∧ w.NotLent x
  | .borrow k excl init p n => w.Unused k ∧ (init = true → w.Inits p n) ∧ (excl = true → w.CanWrite p n) ∧ (excl = false → w.CanRead p n)
  | .forget k => ∃ ρ, w.refs k = some ρ
  | .read p n => w.CanRead p n
  | .write p bs => w.CanWrite p bs.length
  | .call c keep => w.CanCall M c keep
  | .par _ i config src dst keep => w.CanCall M (.base64Encode i config src dst) keep
  | .heap x c => c.RunsOn M ∧ w.CanRead c.shared.ptr c.shared.len ∧
    match c.vec with
    | none => w.Unused x
    | some v => v.buf = x ∧ c.shared.ptr.buf ≠ x ∧ w.NotLent x ∧ ∃ t, w.vars x = some (.vec ⟨t, v.len, v.cap⟩) ∨ Client.AppendsText c ∧ w.vars x = some (.string ⟨t, v.len, v.cap⟩)
  | .ext c => c.RunsOn M ∧ w.CanRead c.shared.ptr c.shared.len

/-- The name through which a step writes. -/
def through : Op → Option Nat
  | .write p _ => some p.buf
  | .call c _ => some c.exclusive.1.buf
  | .par _ _ _ _ dst _ => some dst.ptr.buf
  | _ => none

/-- The worlds a program can get into. -/
inductive Reaches (M : Machine) : World → Prop where
  | start : Reaches M .start
  | step {w w' : World} {op : Op} : Reaches M w → Legal M w op → Exec M.P w op (.ok w') → Reaches M w'

/-- A live reference is valid: it points into the allocation of the variable it was made from, which is live too; the bytes may be read through it, and written if it is a `&mut`; they are initialised if its
type says so; and a `&mut` into text is empty. -/
structure ValidRef (w : World) (ρ : Ref) : Prop where
  owner : ∃ o, w.vars ρ.owner = some o ∧ w.st.home ρ.tag = w.st.home (Spec.ownerOf o).1.buf ∧ ρ.off + ρ.len ≤ (Spec.ownerOf o).2 ∧ (ρ.excl = true → Client.IsText o → ρ.len = 0)
  readable : Readable w.st ⟨ρ.tag, ρ.off⟩ ρ.len
  mutable : ρ.excl = true → Mutable w.st ⟨ρ.tag, ρ.off⟩ ρ.len
  content : ρ.init = true → ∃ xs, xs.length = ρ.len ∧ Reads w.st.mem (place w.st ⟨ρ.tag, ρ.off⟩) xs

/-- A call that ends in state `s` and returns `res`; `none` is `Err`. -/
def returns (res : Option (List Byte)) (s : State) : Result (List Byte) :=
  match res with
  | some r => .ok r s
  | none => .err s

/-- The calls that return a slice. -/
def GivesSlice {α : Type} : Call α → Prop
  | .base64Check .. | .base32Check .. | .hexCheck .. | .swapInplace .. | .isAscii .. | .isUtf32le .. => False
  | _ => True

/-- The bytes that are found at `p`. -/
def World.Bytes (w : World) (p : Ptr) (xs : List Byte) : Prop := Reads w.st.mem (place w.st ⟨w.name p.buf, p.off⟩) xs

/-- What a program has after a call with the result `res`. The variables are the same. If it ends with bytes, they are at the start of the destination; if the slice that is returned is kept, it is a live
`&mut` reference to just these bytes. -/
def World.Ended (w w' : World) {α : Type} (c : Call α) (keep : Option Nat) (res : Option (List Byte)) : Prop :=
  w'.vars = w.vars ∧
  match res with
  | none => w'.refs = w.refs
  | some ys => w'.Bytes c.exclusive.1 ys ∧ (¬ GivesSlice c → w'.refs = w.refs) ∧
    match keep with
    | none => w'.refs = w.refs
    | some k => GivesSlice c → ∃ ρ, w'.refs = w.setRef k (some ρ) ∧ ρ.excl = true ∧ ρ.init = true ∧ ρ.owner = w.ownerOf c.exclusive.1.buf ∧ ρ.off = c.exclusive.1.off ∧ ρ.len = ys.length

end Simd.Lend
