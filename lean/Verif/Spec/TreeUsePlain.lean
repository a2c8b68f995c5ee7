import Verif.Spec.LendPlain
import Verif.Spec.TreeUse
/-
Programs with references, with borrow trees: what they get to know of each step, and the world without tags and borrow trees. The plain memory is that of Verif/Spec/LendPlain.lean.
-/
namespace Simd.Tree.Use
open Client (Seen view viewHeap result)

/-- The step, as one of a program of Verif/Model/Lend.lean. -/
def Step.op : Step → Lend.Op
  | .one (.new x text bs cap) => .new x text bs cap
  | .one (.move x y) => .move x y
  | .one (.truncate x n) => .truncate x n
  | .one (.intoBytes x) => .intoBytes x
  | .one (.drop x) => .drop x
  | .one (.borrow k excl init p n) => .borrow k excl init p n
  | .one (.forget k) => .forget k
  | .one (.read p n) => .read p n
  | .one (.write p bs) => .write p bs
  | .one (.call c keep) => .call c keep
  | .one (.heap x c) => .heap x c
  | .par threads i config src dst keep => .par threads i config src dst keep
  | .ext c => .ext c

/-- What is seen of a call that is given slices. -/
def saw {α : Type} (c : Call α) : Result α → Seen
  | .ok r _ => view c r
  | .err _ => .failed
  | _ => .nothing

/-- What is seen of a call that allocates or appends; `old` is what the variable held. -/
def sawHeap {α : Type} (old : Option Owned) (c : HeapCall α) : Result α → Seen
  | .ok r _ => viewHeap (result old c r) c r
  | .err _ => .failed
  | _ => .nothing

/-- What is seen of a step that gives bytes: they are known. -/
def sawBytes : Result (List Byte) → Seen
  | .ok bs _ => .bytes bs
  | .err _ => .failed
  | _ => .nothing

/-- What is seen of a step in which no threads take part. -/
def seen (P : Plat) (w : World) : Op → Seen
  | .read p n => sawBytes (prog (loadBytes ⟨w.name p.buf, p.off⟩ n) w.st)
  | .call c _ => saw c ((w.args c).tree P w.st)
  | .heap x c => sawHeap (w.vars x) c ((w.argsHeap c).tree P w.st)
  | _ => .nothing

/-- Execution of a step (as `Exec`), with what the program gets to know of it. -/
inductive Shows (P : Plat) (w : World) : Step → Seen → End → Prop where
  | one (op : Op) : Shows P w (.one op) (seen P w op) (exec P w op)
  | par (threads i config src dst keep r)
      (h : Split.Outcome (Tree.Base64.par_encode P threads i config ⟨⟨w.name src.ptr.buf, src.ptr.off⟩, src.len⟩ ⟨⟨w.name dst.ptr.buf, dst.ptr.off⟩, dst.len⟩) w.st r) :
      Shows P w (.par threads i config src dst keep) (saw (.base64Encode i config src dst) r) (w.kept (.base64Encode i config src dst) keep r)
  | ext (c : ExtCall) : Shows P w (.ext c) (sawBytes ((w.argsExt c).tree w.st)) (w.after ((w.argsExt c).tree w.st) fun _ => w.vars)

/-- The program has got to know `h` and is now in `w`; every step is one that safe Rust allows. -/
inductive Run (M : Machine) (p : Lend.Program) : List Seen → World → Prop where
  | start : Run M p [] .start
  | step {h : List Seen} {w w' : World} {op : Step} {v : Seen} : Run M p h w → p h = some op.op → op.Legal M w → Shows M.P w op v (.ok w') → Run M p (h ++ [v]) w'

/-- The world without tags and borrow trees. -/
def World.plain (w : World) : Lend.Plain := ⟨w.st.mem, fun x => (w.vars x).map (Spec.Moves.move w.st.home), fun r => (w.refs r).map fun ρ => { ρ with tag := w.st.home ρ.tag }⟩

def End.plain : End → Lend.Plain.End
  | .ok w => .ok w.plain
  | .panic => .panic
  | .ub => .ub

end Simd.Tree.Use
