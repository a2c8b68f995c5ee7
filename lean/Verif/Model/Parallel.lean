import Verif.Model.Base64
/-
Parallel encoding: crates/base64-simd/src/parallel.rs, and an interleaving semantics for the tasks it spawns.
-/
namespace Simd

/-! ### Tasks running in parallel

Rayon's `for_each` runs the closure once for every item, on any threads and in any order, and returns when all calls have
returned. This is modelled by interleaving the memory accesses of the tasks in any order. -/

/-- A pool of running tasks with the memory, or `bad`: some task has panicked or has undefined behaviour. -/
inductive Pool where
  | run (ts : List (Prog Unit)) (m : Mem)
  | bad

/-- The next memory access of a task; `none`: failure. -/
def Prog.step : Prog Unit → Mem → Option (Prog Unit × Mem)
  | .pure a, m => some (.pure a, m)
  | .err, _ => none
  | .panic, _ => none
  | .ub, _ => none
  | .load p n k, m =>
    match m.read p n with
    | some bs => some (k bs, m)
    | none => none
  | .store p bs k, m => if p.off + bs.length ≤ m.size p.buf then some (k, m.write p bs) else none
  | .chk p k, m => if p.off ≤ m.size p.buf then some (k, m) else none
  | .alloc n k, m => some (k m.nbuf, m.alloc n)

/-- The task has returned. -/
def Prog.finished : Prog Unit → Bool
  | .pure _ => true
  | _ => false

/-- The cells the next step of a task reads or writes. -/
def Prog.touches : Prog Unit → Nat → Nat → Prop
  | .load p n _, b, i => b = p.buf ∧ p.off ≤ i ∧ i < p.off + n
  | .store p bs _, b, i => b = p.buf ∧ p.off ≤ i ∧ i < p.off + bs.length
  | _, _, _ => False
/-- The cells the next step of a task writes. -/
def Prog.writes : Prog Unit → Nat → Nat → Prop
  | .store p bs _, b, i => b = p.buf ∧ p.off ≤ i ∧ i < p.off + bs.length
  | _, _, _ => False

/-- Two tasks are about to access the same cell, one of them writing: a data race, which is undefined behaviour. -/
def Race (x y : Prog Unit) : Prop := ∃ b i, x.writes b i ∧ y.touches b i

/-- One step of the pool: any unfinished task makes its next access, or a data race is detected. -/
inductive Pool.Step : Pool → Pool → Prop where
  | ok {ts m} (t : Nat) (h : t < ts.length) (hf : ts[t].finished = false) {x m'} (hs : ts[t].step m = some (x, m')) :
      Pool.Step (.run ts m) (.run (ts.set t x) m')
  | fail {ts m} (t : Nat) (h : t < ts.length) (hf : ts[t].finished = false) (hs : ts[t].step m = none) :
      Pool.Step (.run ts m) .bad
  | race {ts m} (t u : Nat) (h : t < ts.length) (h' : u < ts.length) (hne : t ≠ u) (hr : Race ts[t] ts[u]) :
      Pool.Step (.run ts m) .bad

/-- `n` steps. -/
inductive Pool.Steps : Nat → Pool → Pool → Prop where
  | refl (c) : Pool.Steps 0 c c
  | tail {n a b c} : Pool.Steps n a b → Pool.Step b c → Pool.Steps (n + 1) a c

/-- All tasks have returned, leaving memory `m`. -/
def Pool.Done (c : Pool) (m : Mem) : Prop := ∃ ts, c = .run ts m ∧ ∀ x ∈ ts, x.finished = true

/-- Sequential code that may end by running tasks in parallel and then returning `a`. -/
inductive Fork (α : Type) where
  | seq (a : α)
  | par (ts : List (Prog Unit)) (a : α)

/-- Possible outcomes of such code under some schedule. -/
inductive Fork.Outcome {α : Type} (x : Prog (Fork α)) (m : Mem) : Out α → Prop where
  | seq {a m'} (h : x.run m = .ok (.seq a) m') : Fork.Outcome x m (.ok a m')
  | err {m'} (h : x.run m = .err m') : Fork.Outcome x m (.err m')
  | panic (h : x.run m = .panic) : Fork.Outcome x m .panic
  | ub (h : x.run m = .ub) : Fork.Outcome x m .ub
  | par {ts a m' n c m''} (h : x.run m = .ok (.par ts a) m') (hs : Pool.Steps n (.run ts m') c) (hd : c.Done m'') : Fork.Outcome x m (.ok a m'')
  | bad {ts a m' n} (h : x.run m = .ok (.par ts a) m') (hs : Pool.Steps n (.run ts m') .bad) : Fork.Outcome x m .ub

/-! ### parallel.rs -/

/-- `slice.par_chunks(n)` / `par_chunks_mut(n)` of Rayon: pieces of `n` elements, the last one possibly shorter (`n > 0`). -/
def chunksFrom (p : Ptr) (n len : Nat) : List Slice :=
  if _h : 0 < n ∧ 0 < len then ⟨p, min n len⟩ :: chunksFrom (p.add n) n (len - n) else []
termination_by len
decreasing_by omega

/-- `par_chunks(n)`: panics if `n = 0`. -/
def par_chunks (s : Slice) (n : Nat) : Prog (List Slice) := if n = 0 then .panic else pure (chunksFrom s.ptr n s.len)

namespace Base64

/-- The closure run for every pair of chunks (parallel.rs:37-46 and 48-53). -/
def par_task (i : Option Isa) (config : Config) (s d : Slice) : Prog Unit :=
  if config.extra.padding then
    if s.len % 3 = 0 then encode_auto i s.ptr s.len d.ptr ⟨config.kind, .noPad⟩
    else encode_auto i s.ptr s.len d.ptr config
  else encode_auto i s.ptr s.len d.ptr config

/-- `Base64::par_encode` (parallel.rs:16-61); `p` is `rayon::current_num_threads()`. -/
def par_encode (P : Plat) (p : Nat) (i : Option Isa) (config : Config) (src dst : Slice) : Prog (Fork Slice) := do
  let b := src.len / 3
  let q ← liftO (P.mulU p 4096)
  if src.len < q ∨ p < 2 ∨ b < p then return .seq (← encode P i config src dst)
  else
    let encoded_len ← liftO (encoded_length_unchecked P src.len config)
    -- `&mut dst[..encoded_len]`
    assert (encoded_len ≤ dst.len)
    let bp ← liftO (P.addU b p)
    let chunks := bp / p
    let src_chunks ← par_chunks src (← liftO (P.mulU chunks 3))
    let dst_chunks ← par_chunks ⟨dst.ptr, encoded_len⟩ (← liftO (P.mulU chunks 4))
    return .par ((src_chunks.zip dst_chunks).map fun sd => par_task i config sd.1 sd.2) ⟨dst.ptr, encoded_len⟩

end Base64
end Simd
