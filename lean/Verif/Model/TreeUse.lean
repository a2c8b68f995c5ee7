import Verif.Model.Lend
import Verif.Model.TreeHeap
import Verif.Model.TreePar
import Verif.Model.TreeExt
import Verif.Spec.TreeHeap
/-
Programs that use the crates and keep references, as in Verif/Model/Lend.lean, with the rules of Tree Borrows in place of those of Stacked Borrows.
-/
namespace Simd.Tree.Use

/-- Variables that own memory, live references, and the memory with borrow trees. Variables and references have different names. -/
structure World where
  vars : Nat → Option Owned
  st : State
  refs : Nat → Option Lend.Ref

/-- One step of a program in which no threads take part. A pointer in a step is a name, of a variable or of a reference, with the offset in the allocation. -/
inductive Op : Type 1 where
  /-- A new `Vec<u8>`, or `String` if `text`, of the given content and capacity. -/
  | new (x : Nat) (text : Bool) (bs : List Byte) (cap : Nat)
  /-- What variable `x` holds is moved to variable `y`. -/
  | move (x y : Nat)
  /-- `Vec::truncate`, `Vec::clear`. -/
  | truncate (x n : Nat)
  /-- `String::into_bytes`, `str::into_boxed_bytes`: what variable `x` holds is no longer text. -/
  | intoBytes (x : Nat)
  /-- The end of the scope of variable `x`. -/
  | drop (x : Nat)
  /-- `let k = &p[..]` or `let k = &mut p[..]`: a new reference to `n` bytes, from a variable or a reference. -/
  | borrow (k : Nat) (excl init : Bool) (p : Ptr) (n : Nat)
  /-- The last use of a reference is over. -/
  | forget (k : Nat)
  | read (p : Ptr) (n : Nat)
  | write (p : Ptr) (bs : List Byte)
  /-- A function that is given slices (base64-simd, base32-simd, hex-simd, uuid-simd, unicode-simd: `Call`). If `keep` is the name of a reference, the slice that is returned, if any, is kept in it. -/
  | call {α : Type} (c : Call α) (keep : Option Nat)
  /-- A function that allocates its result, which variable `x` then holds, or appends to the vector or string that variable `x` holds (base64-simd, base32-simd, hex-simd: `HeapCall`). -/
  | heap (x : Nat) {α : Type} (c : HeapCall α)

/-- One step of a program. -/
inductive Step : Type 1 where
  | one (op : Op)
  /-- `base64_simd::par_encode` (crates/base64-simd/src/parallel.rs:16-61) with this number of threads. -/
  | par (threads : Nat) (i : Option Isa) (config : Base64.Config) (src dst : Slice) (keep : Option Nat)
  /-- A function of `UuidExt`, or a formatter of a UUID (crates/uuid-simd/src/ext.rs: `ExtCall`). (Simplified: the program sees the result, but does not put it into a variable.) -/
  | ext (c : ExtCall)

/-- How a step ends: the program goes on, it panics (simplified: it then does nothing more), or its behaviour is undefined. -/
inductive End where
  | ok (w : World)
  | panic
  | ub

/-- The tag that a name stands for; that of a name that is not in use is one that has not been given out. -/
def World.name (w : World) (n : Nat) : Nat :=
  match w.refs n, w.vars n with
  | some ρ, _ => ρ.tag
  | none, some o => (Spec.ownerOf o).1.buf
  | none, none => w.st.next

/-- The variable whose memory a name gives access to. -/
def World.ownerOf (w : World) (n : Nat) : Nat :=
  match w.refs n with
  | some ρ => ρ.owner
  | none => n

/-- The call with the tagged pointers that the names in it stand for. (Simplified: a variable is lent directly, and not through a reference made for the call.) -/
def World.args (w : World) {α : Type} (c : Call α) : Call α := untag { w.st with home := w.name } c

/-- The call with the tagged pointers that the names in it stand for. -/
def World.argsHeap (w : World) {α : Type} (c : HeapCall α) : HeapCall α := untagHeap { w.st with home := w.name } c

/-- The variables after an assignment. -/
def World.set (w : World) (x : Nat) (o : Option Owned) : Nat → Option Owned := fun y => if y = x then o else w.vars y

/-- The references after an assignment. -/
def World.setRef (w : World) (k : Nat) (ρ : Option Lend.Ref) : Nat → Option Lend.Ref := fun n => if n = k then ρ else w.refs n

/-- The world after a step; an `Err` is a value like others. -/
def World.after (w : World) {α : Type} (r : Result α) (f : α → Nat → Option Owned) : End :=
  match r with
  | .ok a s => .ok ⟨f a, s, w.refs⟩
  | .err s => .ok { w with st := s }
  | .panic => .panic
  | .ub => .ub

/-- A new reference `k` to the `n` bytes at the tagged pointer `p`, in the memory of variable `x`. -/
def World.make (w : World) (k : Nat) (excl init : Bool) (x : Nat) (p : Ptr) (n : Nat) : End :=
  match retag (if excl then .mut else .shared) p n w.st with
  | .ok q s => .ok ⟨w.vars, s, w.setRef k (some ⟨q.buf, p.off, n, excl, init, x⟩)⟩
  | .err s => .ok { w with st := s }
  | .panic => .panic
  | .ub => .ub

/-- The world after a call. A returned slice that is kept is reborrowed, as every value that a function returns; that of a call that returns none, or an `Err`, is not. -/
def World.kept (w : World) {α : Type} (c : Call α) (keep : Option Nat) (r : Result α) : End :=
  match r, keep with
  | .ok a s, some k =>
    match Lend.returned c a with
    | some (p, n) => World.make { w with st := s } k true true (w.ownerOf c.exclusive.1.buf) p n
    | none => .ok { w with st := s }
  | r, _ => w.after r fun _ => w.vars

/-- Execution of a step in which no threads take part. -/
def exec (P : Plat) (w : World) : Op → End
  | .new x text bs cap => w.after (prog (Client.create bs cap) w.st) fun b => w.set x (some (if text then .string ⟨b, bs.length, cap⟩ else .vec ⟨b, bs.length, cap⟩))
  | .move x y => .ok { w with vars := fun z => if z = y then w.vars x else if z = x then none else w.vars z }
  | .truncate x n => .ok { w with vars := w.set x ((w.vars x).map (Client.shorter n)) }
  | .intoBytes x => .ok { w with vars := w.set x ((w.vars x).map Client.intoBytes) }
  | .drop x =>
    match w.vars x with
    | some o => w.after (dropOwned o w.st) fun _ => w.set x none
    | none => .ub
  | .borrow k excl init p n => w.make k excl init (w.ownerOf p.buf) ⟨w.name p.buf, p.off⟩ n
  | .forget k => .ok { w with refs := w.setRef k none }
  | .read p n => w.after (prog (loadBytes ⟨w.name p.buf, p.off⟩ n) w.st) fun _ => w.vars
  | .write p bs => w.after (prog (storeBytes ⟨w.name p.buf, p.off⟩ bs) w.st) fun _ => w.vars
  | .call c keep => w.kept c keep ((w.args c).tree P w.st)
  | .heap x c => w.after ((w.argsHeap c).tree P w.st) fun r => w.set x (some (Client.result (w.vars x) c r))

/-- The call with the tagged pointers that the names in it stand for. -/
def World.argsExt (w : World) : ExtCall → ExtCall
  | .parse si hi src => .parse si hi ⟨⟨w.name src.ptr.buf, src.ptr.off⟩, src.len⟩
  | .parseSimple i src => .parseSimple i ⟨⟨w.name src.ptr.buf, src.ptr.off⟩, src.len⟩
  | .parseHyphenated i src => .parseHyphenated i ⟨⟨w.name src.ptr.buf, src.ptr.off⟩, src.len⟩
  | .formatSimple i case src => .formatSimple i case ⟨w.name src.buf, src.off⟩
  | .formatHyphenated i case src => .formatHyphenated i case ⟨w.name src.buf, src.off⟩

/-- Execution of a step. That of `par_encode` depends on what the threads do when. -/
inductive Exec (P : Plat) (w : World) : Step → End → Prop where
  | one (op : Op) : Exec P w (.one op) (exec P w op)
  | par (threads i config src dst keep r)
      (h : Split.Outcome (Tree.Base64.par_encode P threads i config ⟨⟨w.name src.ptr.buf, src.ptr.off⟩, src.len⟩ ⟨⟨w.name dst.ptr.buf, dst.ptr.off⟩, dst.len⟩) w.st r) :
      Exec P w (.par threads i config src dst keep) (w.kept (.base64Encode i config src dst) keep r)
  | ext (c : ExtCall) : Exec P w (.ext c) (w.after ((w.argsExt c).tree w.st) fun _ => w.vars)

/-- The start: no variables, no references and no memory. -/
def World.start : World :=
  ⟨fun _ => none, { mem := ⟨0, fun _ => 0, fun _ _ => none⟩, home := id, next := 0, up := fun _ _ => false, guard := [], cell := fun _ _ _ => ⟨.disabled, false⟩, freed := fun _ => false }, fun _ => none⟩

end Simd.Tree.Use
