import Verif.Model.Client
import Verif.Model.BorrowPar
import Verif.Model.BorrowExt
/-
Programs that use the crates and keep references: as in Verif/Model/Client.lean, with `&` and `&mut` references that live for any number of steps, made from variables or from other references,
or returned by functions of the crates; and with `par_encode` and the functions of uuid-simd's `ext.rs`.
-/
namespace Simd.Lend
open Borrow Spec

/-- A reference to `len` bytes at offset `off` of an allocation: `&[u8]`, `&str`; if `excl`, `&mut [u8]`, or, if not `init`, `&mut [MaybeUninit<u8>]`, `Out<[u8]>`. `owner` is the variable whose memory it points to
(known to the compiler by the lifetime). -/
structure Ref where
  tag : Nat
  off : Nat
  len : Nat
  excl : Bool
  init : Bool
  owner : Nat

/-- Variables that own memory, live references, and the memory with borrow stacks. Variables and references have different names. A reference is live as long as the program may still use it. -/
structure World extends Client.World where
  refs : Nat → Option Ref

/-- One step of a program. A pointer in a step is a name, of a variable or of a reference, with the offset in the allocation. -/
inductive Op : Type 1 where
  /-- As in Verif/Model/Client.lean. -/
  | new (x : Nat) (text : Bool) (bs : List Byte) (cap : Nat)
  | move (x y : Nat)
  | truncate (x n : Nat)
  | intoBytes (x : Nat)
  | drop (x : Nat)
  /-- `let k = &p[..]` or `let k = &mut p[..]`: a new reference to `n` bytes, from a variable or a reference. -/
  | borrow (k : Nat) (excl init : Bool) (p : Ptr) (n : Nat)
  /-- The last use of a reference is over. -/
  | forget (k : Nat)
  | read (p : Ptr) (n : Nat)
  | write (p : Ptr) (bs : List Byte)
  /-- A function that is given slices. If `keep` is the name of a reference, the slice that is returned, if any, is kept in it. -/
  | call {α : Type} (c : Call α) (keep : Option Nat)
  /-- `par_encode` with `threads` threads. -/
  | par (threads : Nat) (i : Option Isa) (config : Base64.Config) (src dst : Slice) (keep : Option Nat)
  /-- A function that allocates its result or appends to a vector or string. -/
  | heap (x : Nat) {α : Type} (c : HeapCall α)
  /-- A function of uuid-simd's `ext.rs`. (Simplified: the program sees the result, but does not put it into a variable.) -/
  | ext (c : ExtCall)

/-- How a step ends. -/
inductive End where
  | ok (w : World)
  | panic
  | ub

/-- The tag that a name stands for. -/
def World.name (w : World) (n : Nat) : Nat :=
  match w.refs n with
  | some ρ => ρ.tag
  | none => w.tag n

/-- The call with the tagged pointers that the names in it stand for. (Simplified: a variable is lent directly, and not through a reference made for the call.) -/
def World.args (w : World) {α : Type} (c : Call α) : Call α := untag { w.st with home := w.name } c

/-- The call with the tagged pointers that the names in it stand for. -/
def World.argsHeap (w : World) {α : Type} (c : HeapCall α) : HeapCall α := untagHeap { w.st with home := w.name } c

/-- The call with the tagged pointers that the names in it stand for. -/
def World.argsExt (w : World) : ExtCall → ExtCall
  | .parse si hi src => .parse si hi ⟨⟨w.name src.ptr.buf, src.ptr.off⟩, src.len⟩
  | .parseSimple i src => .parseSimple i ⟨⟨w.name src.ptr.buf, src.ptr.off⟩, src.len⟩
  | .parseHyphenated i src => .parseHyphenated i ⟨⟨w.name src.ptr.buf, src.ptr.off⟩, src.len⟩
  | .formatSimple i case src => .formatSimple i case ⟨w.name src.buf, src.off⟩
  | .formatHyphenated i case src => .formatHyphenated i case ⟨w.name src.buf, src.off⟩

/-- The variable whose memory a name gives access to. -/
def World.ownerOf (w : World) (n : Nat) : Nat :=
  match w.refs n with
  | some ρ => ρ.owner
  | none => n

/-- The references after an assignment. -/
def World.setRef (w : World) (k : Nat) (ρ : Option Ref) : Nat → Option Ref := fun n => if n = k then ρ else w.refs n

/-- The slice that a call returns: where it is, and its length in bytes. -/
def returned : {α : Type} → Call α → α → Option (Ptr × Nat)
  | _, .swap t .., r => some (r.ptr, t.size * r.len)
  | _, .base64Encode .., r | _, .base64Decode .., r | _, .base64Inplace .., r | _, .forgiving .., r | _, .forgivingInplace .., r | _, .base32Encode .., r
  | _, .base32Decode .., r | _, .base32Inplace .., r | _, .hexEncode .., r | _, .hexDecode .., r | _, .hexInplace .., r | _, .uuidParse .., r
  | _, .uuidParseSimple .., r | _, .uuidParseHyphenated .., r | _, .uuidFormatSimple .., r | _, .uuidFormatHyphenated .., r => some (r.ptr, r.len)
  | _, .base64Check .., _ | _, .base32Check .., _ | _, .hexCheck .., _ | _, .swapInplace .., _ | _, .isAscii .., _ | _, .isUtf32le .., _ => none

/-- The world after a step that changes what variables hold. -/
def World.owned (w : World) : Client.End → End
  | .ok w' => .ok { toWorld := w', refs := w.refs }
  | .panic => .panic
  | .ub => .ub

/-- The world after a step that changes memory only. -/
def World.after (w : World) {α : Type} : Result α → End
  | .ok _ s => .ok { w with st := s }
  | .err s => .ok { w with st := s }
  | .panic => .panic
  | .ub => .ub

/-- A new reference `k` to the `n` bytes at the tagged pointer `p`, in the memory of variable `x`. -/
def World.make (w : World) (k : Nat) (excl init : Bool) (x : Nat) (p : Ptr) (n : Nat) : End :=
  match retag (if excl then .mut else .shared) p n w.st with
  | .ok q s => .ok ⟨⟨w.vars, s⟩, w.setRef k (some ⟨q.buf, p.off, n, excl, init, x⟩)⟩
  | .err s => .ok { w with st := s }
  | .panic => .panic
  | .ub => .ub

/-- The world after a call. A returned slice that is kept is reborrowed, as every value that a function returns; that of a call that returns none, or an `Err`, is not. -/
def World.kept (w : World) {α : Type} (c : Call α) (keep : Option Nat) (r : Result α) : End :=
  match r, keep with
  | .ok a s, some k =>
    match returned c a with
    | some (p, n) => World.make { w with st := s } k true true (w.ownerOf c.exclusive.1.buf) p n
    | none => .ok { w with st := s }
  | r, _ => w.after r

/-- Execution of a step. That of `par_encode` depends on what the threads do when. -/
inductive Exec (P : Plat) (w : World) : Op → End → Prop where
  | new (x text bs cap) : Exec P w (.new x text bs cap) (w.owned (Client.exec P w.toWorld (.new x text bs cap)))
  | move (x y) : Exec P w (.move x y) (w.owned (Client.exec P w.toWorld (.move x y)))
  | truncate (x n) : Exec P w (.truncate x n) (w.owned (Client.exec P w.toWorld (.truncate x n)))
  | intoBytes (x) : Exec P w (.intoBytes x) (w.owned (Client.exec P w.toWorld (.intoBytes x)))
  | drop (x) : Exec P w (.drop x) (w.owned (Client.exec P w.toWorld (.drop x)))
  | borrow (k excl init p n) : Exec P w (.borrow k excl init p n) (w.make k excl init (w.ownerOf p.buf) ⟨w.name p.buf, p.off⟩ n)
  | forget (k) : Exec P w (.forget k) (.ok { w with refs := w.setRef k none })
  | read (p n) : Exec P w (.read p n) (w.after (prog (loadBytes ⟨w.name p.buf, p.off⟩ n) w.st))
  | write (p bs) : Exec P w (.write p bs) (w.after (prog (storeBytes ⟨w.name p.buf, p.off⟩ bs) w.st))
  | call {α : Type} (c : Call α) (keep) : Exec P w (.call c keep) (w.kept c keep ((w.args c).borrow P w.st))
  | par (threads i config src dst keep r)
      (h : Split.Outcome (Borrow.Base64.par_encode P threads i config ⟨⟨w.name src.ptr.buf, src.ptr.off⟩, src.len⟩ ⟨⟨w.name dst.ptr.buf, dst.ptr.off⟩, dst.len⟩) w.st r) :
      Exec P w (.par threads i config src dst keep) (w.kept (.base64Encode i config src dst) keep r)
  | heap {α : Type} (x) (c : HeapCall α) :
      Exec P w (.heap x c) (w.owned (w.toWorld.after ((w.argsHeap c).borrow P w.st) fun r => w.set x (some (Client.result (w.vars x) c r))))
  | ext (c : ExtCall) : Exec P w (.ext c) (w.after ((w.argsExt c).borrow w.st))

/-- The start: no variables, no references and no memory. -/
def World.start : World := ⟨Client.World.start, fun _ => none⟩

end Simd.Lend
