import Verif.Spec.Lend
import Verif.Spec.Store
import Verif.Model.Parallel
/-
Programs that keep references, over memory with plain pointers: no tags, no borrow stacks, and allocations that are numbered in the order in which they are made. And what a program gets to know of each step.
-/
namespace Simd.Lend
open Borrow Spec Client

/-! ### What a program gets to know -/

/-- Of a call that is given slices. -/
def saw {α : Type} (c : Call α) : Result α → Seen
  | .ok r _ => view c r
  | .err _ => .failed
  | _ => .nothing

/-- Of a call that allocates or appends; `old` is what the variable held. -/
def sawHeap {α : Type} (old : Option Owned) (c : HeapCall α) : Result α → Seen
  | .ok r _ => viewHeap (result old c r) c r
  | .err _ => .failed
  | _ => .nothing

/-- Of a step that gives bytes: they are known. -/
def sawBytes : Result (List Byte) → Seen
  | .ok bs _ => .bytes bs
  | .err _ => .failed
  | _ => .nothing

/-- The steps of which nothing is seen but that they end. -/
def Quiet : Op → Prop
  | .read .. | .call .. | .par .. | .heap .. | .ext .. => False
  | _ => True

/-- Execution of a step (as `Exec`), with what the program gets to know of it. -/
inductive Shows (P : Plat) (w : World) : Op → Seen → End → Prop where
  | quiet {op e} (hq : Quiet op) (he : Exec P w op e) : Shows P w op .nothing e
  | read (p n) : Shows P w (.read p n) (sawBytes (prog (loadBytes ⟨w.name p.buf, p.off⟩ n) w.st)) (w.after (prog (loadBytes ⟨w.name p.buf, p.off⟩ n) w.st))
  | call {α : Type} (c : Call α) (keep) : Shows P w (.call c keep) (saw c ((w.args c).borrow P w.st)) (w.kept c keep ((w.args c).borrow P w.st))
  | par (threads i config src dst keep r)
      (h : Split.Outcome (Borrow.Base64.par_encode P threads i config ⟨⟨w.name src.ptr.buf, src.ptr.off⟩, src.len⟩ ⟨⟨w.name dst.ptr.buf, dst.ptr.off⟩, dst.len⟩) w.st r) :
      Shows P w (.par threads i config src dst keep) (saw (.base64Encode i config src dst) r) (w.kept (.base64Encode i config src dst) keep r)
  | heap {α : Type} (x) (c : HeapCall α) : Shows P w (.heap x c) (sawHeap (w.vars x) c ((w.argsHeap c).borrow P w.st))
      (w.owned (w.toWorld.after ((w.argsHeap c).borrow P w.st) fun r => w.set x (some (Client.result (w.vars x) c r))))
  | ext (c : ExtCall) : Shows P w (.ext c) (sawBytes ((w.argsExt c).borrow w.st)) (w.after ((w.argsExt c).borrow w.st))

/-- A program: what it does next depends on everything it got to know so far. -/
abbrev Program : Type 1 := List Seen → Option Op

/-- The program has got to know `h` and is now in `w`; every step is one that safe Rust allows. -/
inductive Run (M : Machine) (p : Program) : List Seen → World → Prop where
  | start : Run M p [] .start
  | step {h : List Seen} {w w' : World} {op : Op} {v : Seen} : Run M p h w → p h = some op → Legal M w op → Shows M.P w op v (.ok w') → Run M p (h ++ [v]) w'

/-! ### Plain memory -/

/-- Variables and live references, with the number of the allocation in place of the tag, and the memory. -/
structure Plain where
  mem : Mem
  vars : Nat → Option Owned
  refs : Nat → Option Ref

/-- The world without tags and borrow stacks. -/
def World.plain (w : World) : Plain := ⟨w.st.mem, fun x => (w.vars x).map (Moves.move w.st.home), fun r => (w.refs r).map fun ρ => { ρ with tag := w.st.home ρ.tag }⟩

/-- How a step ends, over plain memory. -/
inductive Plain.End where
  | ok (p : Plain)
  | panic
  | ub

def End.plain : End → Plain.End
  | .ok w => .ok w.plain
  | .panic => .panic
  | .ub => .ub

namespace Plain

/-- The allocation that a name gives access to. -/
def alloc (p : Plain) (n : Nat) : Nat :=
  match p.refs n, p.vars n with
  | some ρ, _ => ρ.tag
  | none, some o => (Spec.ownerOf o).1.buf
  | none, none => 0

/-- The variable whose memory a name gives access to. -/
def ownerOf (p : Plain) (n : Nat) : Nat :=
  match p.refs n with
  | some ρ => ρ.owner
  | none => n

/-- Where a pointer in a step points to. -/
def at' (p : Plain) (q : Ptr) : Ptr := ⟨p.alloc q.buf, q.off⟩

/-- The call with the allocations that the names in it stand for. -/
def args (p : Plain) {α : Type} (c : Call α) : Call α := untag ⟨p.mem, p.alloc, 0, 0, fun _ _ => []⟩ c
def argsHeap (p : Plain) {α : Type} (c : HeapCall α) : HeapCall α := untagHeap ⟨p.mem, p.alloc, 0, 0, fun _ _ => []⟩ c
def ext (p : Plain) : ExtCall → Prog (List Byte)
  | .parse si hi src => Uuid.ext_parse si hi ⟨p.at' src.ptr, src.len⟩
  | .parseSimple i src => Uuid.ext_parse_simple i ⟨p.at' src.ptr, src.len⟩
  | .parseHyphenated i src => Uuid.ext_parse_hyphenated i ⟨p.at' src.ptr, src.len⟩
  | .formatSimple i case src => Uuid.fmt_simple i (p.at' src) case
  | .formatHyphenated i case src => Uuid.fmt_hyphenated i (p.at' src) case

def set (p : Plain) (x : Nat) (o : Option Owned) : Nat → Option Owned := fun y => if y = x then o else p.vars y
def setRef (p : Plain) (k : Nat) (ρ : Option Ref) : Nat → Option Ref := fun n => if n = k then ρ else p.refs n

/-- After a run of a program on the memory. -/
def after (p : Plain) {α : Type} (o : Out α) (f : α → Nat → Option Owned) : End :=
  match o with
  | .ok a m => .ok ⟨m, f a, p.refs⟩
  | .err m => .ok ⟨m, p.vars, p.refs⟩
  | .panic => .panic
  | .ub => .ub

/-- After a call; a slice that it returns may be kept. -/
def kept (p : Plain) {α : Type} (c : Call α) (keep : Option Nat) (o : Out α) : End :=
  match o, keep with
  | .ok a m, some k =>
    match returned c a with
    | some (q, n) => .ok ⟨m, p.vars, p.setRef k (some ⟨q.buf, q.off, n, true, true, p.ownerOf c.exclusive.1.buf⟩)⟩
    | none => .ok ⟨m, p.vars, p.refs⟩
  | o, _ => p.after o fun _ => p.vars

/-- What is seen, as above. -/
def saw {α : Type} (c : Call α) : Out α → Seen
  | .ok r _ => view c r
  | .err _ => .failed
  | _ => .nothing

def sawHeap {α : Type} (old : Option Owned) (c : HeapCall α) : Out α → Seen
  | .ok r _ => viewHeap (result old c r) c r
  | .err _ => .failed
  | _ => .nothing

def sawBytes : Out (List Byte) → Seen
  | .ok bs _ => .bytes bs
  | .err _ => .failed
  | _ => .nothing

/-- Execution of a step over plain memory, with what is seen of it. The functions are those without references: `Call.prog`, `HeapCall.prog` and `par_encode` of Verif/Model. -/
inductive Exec (P : Plat) (p : Plain) : Op → Seen → End → Prop where
  | new (x text bs cap) : Exec P p (.new x text bs cap) .nothing
      (p.after ((create bs cap).run p.mem) fun b => p.set x (some (if text then .string ⟨b, bs.length, cap⟩ else .vec ⟨b, bs.length, cap⟩)))
  | move (x y) : Exec P p (.move x y) .nothing (.ok ⟨p.mem, fun z => if z = y then p.vars x else if z = x then none else p.vars z, p.refs⟩)
  | truncate (x n) : Exec P p (.truncate x n) .nothing (.ok ⟨p.mem, p.set x ((p.vars x).map (shorter n)), p.refs⟩)
  | intoBytes (x) : Exec P p (.intoBytes x) .nothing (.ok ⟨p.mem, p.set x ((p.vars x).map Client.intoBytes), p.refs⟩)
  | drop (x) : Exec P p (.drop x) .nothing (.ok ⟨p.mem, p.set x none, p.refs⟩)
  | borrow (k excl init q n) : Exec P p (.borrow k excl init q n) .nothing (.ok ⟨p.mem, p.vars, p.setRef k (some ⟨p.alloc q.buf, q.off, n, excl, init, p.ownerOf q.buf⟩)⟩)
  | forget (k) : Exec P p (.forget k) .nothing (.ok ⟨p.mem, p.vars, p.setRef k none⟩)
  | read (q n) : Exec P p (.read q n) (sawBytes ((loadBytes (p.at' q) n).run p.mem)) (p.after ((loadBytes (p.at' q) n).run p.mem) fun _ => p.vars)
  | write (q bs) : Exec P p (.write q bs) .nothing (p.after ((storeBytes (p.at' q) bs).run p.mem) fun _ => p.vars)
  | call {α : Type} (c : Call α) (keep) : Exec P p (.call c keep) (saw c (((p.args c).prog P).run p.mem)) (p.kept c keep (((p.args c).prog P).run p.mem))
  | par (threads i config src dst keep o)
      (h : Fork.Outcome (Base64.par_encode P threads i config ⟨p.at' src.ptr, src.len⟩ ⟨p.at' dst.ptr, dst.len⟩) p.mem o) :
      Exec P p (.par threads i config src dst keep) (saw (.base64Encode i config src dst) o) (p.kept (.base64Encode i config src dst) keep o)
  | heap {α : Type} (x) (c : HeapCall α) : Exec P p (.heap x c) (sawHeap (p.vars x) c (((p.argsHeap c).prog P).run p.mem))
      (p.after (((p.argsHeap c).prog P).run p.mem) fun r => p.set x (some (result (p.vars x) c r)))
  | ext (c : ExtCall) : Exec P p (.ext c) (sawBytes ((p.ext c).run p.mem)) (p.after ((p.ext c).run p.mem) fun _ => p.vars)

/-- The start: no variables, no references and no memory. -/
def start : Plain := ⟨⟨0, fun _ => 0, fun _ _ => none⟩, fun _ => none, fun _ => none⟩

/-- The program has got to know `h` over plain memory. -/
inductive Run (P : Plat) (p : Program) : List Seen → Plain → Prop where
  | start : Run P p [] .start
  | step {h : List Seen} {q q' : Plain} {op : Op} {v : Seen} : Run P p h q → p h = some op → Plain.Exec P q op v (.ok q') → Run P p (h ++ [v]) q'

end Plain

end Simd.Lend
