import Verif.Model.TreeCalls
import Verif.Model.BorrowPar
/-
`par_encode` with the references it makes (crates/base64-simd/src/parallel.rs), and threads that share memory with borrow trees: Verif/Model/BorrowPar.lean under the rules of Verif/Model/TreeBorrows.lean.

What is assumed of Rayon, which is not in /repo, is the same as there. Unlike there, the arguments of a call made by a job are protected exactly until the call returns.
-/
namespace Simd.Tree

/-! ### Threads -/

/-- What a thread is about to do. `bad`: a panic or undefined behaviour. `retag`: makes a reference, protected or not. `ret`: returns from a function whose reference arguments have the tags `ts`.
`pick`: goes on as one of `k 0`, `k 1`, … `fork`: runs two threads in parallel, waits for both and goes on as `k`. -/
inductive Act where
  | done
  | bad
  | load (p : Ptr) (n : Nat) (k : List Byte → Act)
  | store (p : Ptr) (bs : List Byte) (k : Act)
  | chk (p : Ptr) (k : Act)
  | retag (prot : Bool) (kind : Kind) (p : Ptr) (n : Nat) (k : Ptr → Act)
  | ret (ts : List Nat) (k : Act)
  | pick (k : Nat → Act)
  | fork (l r k : Act)

/-- A program, and then `k`. The programs that are run so allocate nothing. -/
def Act.ofProg : Prog Unit → Act → Act
  | .pure _, k => k
  | .load p n f, k => .load p n fun bs => ofProg (f bs) k
  | .store p bs x, k => .store p bs (ofProg x k)
  | .chk p x, k => .chk p (ofProg x k)
  | .err, _ | .panic, _ | .ub, _ | .alloc _ _, _ => .bad

/-- What has to be done on the memory: everything but `done`, `pick` and `fork`. -/
def Act.acts : Act → Bool
  | .bad | .load .. | .store .. | .chk .. | .retag .. | .ret .. => true
  | .done | .pick _ | .fork .. => false

/-- The state after the return from a function whose reference arguments have the tags `ts`. The protected tags of all threads are in one list, the first of `guard`. -/
def State.retOf (s : State) (ts : List Nat) : Option State :=
  (s.releaseAll ts).map fun s => { s with guard := s.guard.modifyHead fun l => l.filter fun t => !ts.contains t }

/-- The next access, retag or return; `none`: it is not possible. The effect on memory and trees is that of `prog`, `retagWith` and `State.ret`. -/
def Act.step : Act → State → Option (Act × State)
  | .load p n k, s =>
    match s.touch false p n, s.mem.read ⟨s.home p.buf, p.off⟩ n with
    | some c, some bs => some (k bs, { s with cell := c })
    | _, _ => none
  | .store p bs k, s =>
    match s.touch true p bs.length with
    | some c =>
      if p.off + bs.length ≤ s.mem.size (s.home p.buf) then some (k, { s with cell := c, mem := s.mem.write ⟨s.home p.buf, p.off⟩ bs }) else none
    | none => none
  | .chk p k, s => if p.off ≤ s.mem.size (s.home p.buf) then some (k, s) else none
  | .retag prot kind p n k, s =>
    match retagWith prot kind p n s with
    | .ok r s' => some (k r, s')
    | _ => none
  | .ret ts k, s =>
    match s.retOf ts with
    | some s' => some (k, s')
    | none => none
  | _, _ => none

/-- The bytes that are about to be written. The end of the protection of a tag counts as a write where the tag is active. -/
def Act.writes (s : State) : Act → Nat → Nat → Prop
  | .store p bs _, b, i => b = s.home p.buf ∧ p.off ≤ i ∧ i < p.off + bs.length
  | .ret ts _, b, i => ∃ t ∈ ts, s.Used t b i ∧ (s.cell b i t).perm = .active
  | _, _, _ => False

/-- The bytes that are about to be read. Making a reference counts as a read, and so does the end of the protection of a tag. -/
def Act.reads (s : State) : Act → Nat → Nat → Prop
  | .load p n _, b, i | .retag _ _ p n _, b, i => b = s.home p.buf ∧ p.off ≤ i ∧ i < p.off + n
  | .ret ts _, b, i => ∃ t ∈ ts, s.Used t b i
  | _, _, _ => False

/-- Both are about to access the same byte, one of them writing. -/
def Act.Race (s : State) (x y : Act) : Prop :=
  ∃ b i, x.writes s b i ∧ (y.writes s b i ∨ y.reads s b i) ∨ y.writes s b i ∧ x.reads s b i

/-- A thread, or two with a third waiting for them, that will go on as `k`. -/
inductive Thread where
  | run (a : Act)
  | join (l r : Thread) (k : Act)

/-- What is running. -/
inductive Thread.Leaf : Thread → Act → Prop where
  | run (a) : Leaf (.run a) a
  | left {l r k a} : Leaf l a → Leaf (.join l r k) a
  | right {l r k a} : Leaf r a → Leaf (.join l r k) a

/-- One step of some thread; `none`: a panic, undefined behaviour or a data race. -/
inductive Thread.Step : Thread → State → Option (Thread × State) → Prop where
  | act {a s a' s'} (h : a.step s = some (a', s')) : Step (.run a) s (some (.run a', s'))
  | fail {a s} (ha : a.acts = true) (h : a.step s = none) : Step (.run a) s none
  | pick {k s} (n : Nat) : Step (.run (.pick k)) s (some (.run (k n), s))
  | fork {l r k s} : Step (.run (.fork l r k)) s (some (.join (.run l) (.run r) k, s))
  | joined {k s} : Step (.join (.run .done) (.run .done) k) s (some (.run k, s))
  | left {l r k s l' s'} (h : Step l s (some (l', s'))) : Step (.join l r k) s (some (.join l' r k, s'))
  | right {l r k s r' s'} (h : Step r s (some (r', s'))) : Step (.join l r k) s (some (.join l r' k, s'))
  | left_bad {l r k s} (h : Step l s none) : Step (.join l r k) s none
  | right_bad {l r k s} (h : Step r s none) : Step (.join l r k) s none
  | race {l r k s x y} (hx : l.Leaf x) (hy : r.Leaf y) (h : x.Race s y) : Step (.join l r k) s none

/-- Any number of steps. -/
inductive Thread.Steps : Thread → State → Thread → State → Prop where
  | refl {t s} : Steps t s t s
  | tail {t s t' s' t'' s''} (h : Steps t s t' s') (h' : t'.Step s' (some (t'', s''))) : Steps t s t'' s''

/-- The state in which a function starts that is called in `s`. -/
def State.enter (s : State) : State := { s with guard := [] :: s.guard }

/-- The result of a function, after its return. -/
def Result.leave {α : Type} : Result α → Result α
  | .ok a s => match s.ret with
    | some s' => .ok a s'
    | none => .ub
  | .err s => match s.ret with
    | some s' => .err s'
    | none => .ub
  | .panic => .panic
  | .ub => .ub

/-- Sequential code that has ended, or that comes to a parallel section `x` and then goes on with `k`. -/
inductive Split (α : Type) where
  | seq (a : α)
  | par (x : Act) (k : BProg α)

/-- The possible results of a call of a function with body `x`. The parallel section is a call too. -/
inductive Split.Outcome {α : Type} (x : BProg (Split α)) (s : State) : Result α → Prop where
  | seq {a s'} (h : x s.enter = .ok (.seq a) s') : Outcome x s (Result.leave (.ok a s'))
  | err {s'} (h : x s.enter = .err s') : Outcome x s (Result.leave (.err s'))
  | panic (h : x s.enter = .panic) : Outcome x s .panic
  | ub (h : x s.enter = .ub) : Outcome x s .ub
  | par {a k s' s'' s3} (h : x s.enter = .ok (.par a k) s') (hs : Thread.Steps (.run a) s'.enter (.run .done) s'') (hr : s''.ret = some s3) : Outcome x s (k s3).leave
  | held {a k s' s''} (h : x s.enter = .ok (.par a k) s') (hs : Thread.Steps (.run a) s'.enter (.run .done) s'') (hr : s''.ret = none) : Outcome x s .ub
  | bad {a k s' t s''} (h : x s.enter = .ok (.par a k) s') (hs : Thread.Steps (.run a) s'.enter t s'') (hb : t.Step s'' none) : Outcome x s .ub

/-! ### References in threads -/

namespace Act

/-- `<[T]>::as_ptr(&self)` on `n` bytes. -/
def as_ptr (p : Ptr) (n : Nat) (k : Ptr → Act) : Act := .retag true .shared p n fun p => .ret [p.buf] (k p)

/-- `<[T]>::as_mut_ptr(&mut self)` on `n` bytes; the argument is `&mut *p`. -/
def as_mut_ptr (p : Ptr) (n : Nat) (k : Ptr → Act) : Act := .retag false .mut p n fun p => .retag true .mut p n fun p => .ret [p.buf] (k p)

/-- `<[T]>::split_at(&self, mid)` on `n` bytes. -/
def split_at (p : Ptr) (n mid : Nat) (k : Ptr → Ptr → Act) : Act :=
  .retag true .shared p n fun p => as_ptr p n fun q => .chk (q.add mid) <| .retag false .shared q mid fun l => .retag false .shared (q.add mid) (n - mid) fun r => .ret [p.buf] (k l r)

/-- `<[T]>::split_at_mut(&mut self, mid)` on `n` bytes; the argument is `&mut *p`. -/
def split_at_mut (p : Ptr) (n mid : Nat) (k : Ptr → Ptr → Act) : Act :=
  .retag false .mut p n fun p => .retag true .mut p n fun p => as_mut_ptr p n fun q => .chk (q.add mid) <| .retag false .mut q mid fun l => .retag false .mut (q.add mid) (n - mid) fun r =>
    .ret [p.buf] (k l r)

/-! ### parallel.rs -/

/-- The closure called for a pair of chunks (parallel.rs:37-46 and 48-53), and then `k`. -/
def task (i : Option Isa) (config : Simd.Base64.Config) (s d : Slice) (k : Act) : Act :=
  .retag true .shared s.ptr s.len fun sa => .retag true .mut d.ptr d.len fun da =>
    as_ptr sa s.len fun sp => as_mut_ptr da d.len fun dp => ofProg (Simd.Base64.par_task i config ⟨sp, s.len⟩ ⟨dp, d.len⟩) (.ret [da.buf, sa.buf] k)

/-- A job that is not divided any more: the closure for each of the `n` chunks, which have `a` bytes of the source and `b` of the destination, in turn, and then `k`. -/
def serial (i : Option Isa) (config : Simd.Base64.Config) (a b : Nat) (k : Act) : Nat → Slice → Slice → Act
  | 0, _, _ => k
  | n + 1, s, d =>
    split_at s.ptr s.len (min a s.len) fun sl sr => split_at_mut d.ptr d.len (min b d.len) fun dl dr =>
      task i config ⟨sl, min a s.len⟩ ⟨dl, min b d.len⟩ (serial i config a b k n ⟨sr, s.len - min a s.len⟩ ⟨dr, d.len - min b d.len⟩)

/-- A job with `n` chunks. -/
def job (i : Option Isa) (config : Simd.Base64.Config) (a b n : Nat) (s d : Slice) : Act :=
  .retag true .shared s.ptr s.len fun sp => .retag true .mut d.ptr d.len fun dp => .pick fun j =>
    if _h : 0 < j ∧ j < n then
      split_at sp s.len (min (j * a) s.len) fun sl sr => split_at_mut dp d.len (min (j * b) d.len) fun dl dr =>
        .fork (job i config a b j ⟨sl, min (j * a) s.len⟩ ⟨dl, min (j * b) d.len⟩) (job i config a b (n - j) ⟨sr, s.len - min (j * a) s.len⟩ ⟨dr, d.len - min (j * b) d.len⟩) (.ret [dp.buf, sp.buf] .done)
    else serial i config a b (.ret [dp.buf, sp.buf] .done) n ⟨sp, s.len⟩ ⟨dp, d.len⟩
termination_by n
decreasing_by all_goals omega

end Act

namespace Base64

/-- The body of `Base64::par_encode` (parallel.rs:16-61); `p` is `rayon::current_num_threads()`. `Out::into_uninit_slice` makes a slice from its raw pointer; `&mut dst[..encoded_len]` calls
`IndexMut::index_mut` with `&mut *dst`. -/
def par_encode (P : Plat) (p : Nat) (i : Option Isa) (config : Simd.Base64.Config) (src dst : Slice) : BProg (Split Slice) := do
  let sp ← arg .shared src.ptr src.len
  let b := src.len / 3
  let q ← prog (liftO (P.mulU p 4096))
  if src.len < q ∨ p < 2 ∨ b < p then do
    let r ← encode P i config ⟨sp, src.len⟩ dst
    return .seq r
  else do
    let encoded_len ← prog (liftO (Simd.Base64.encoded_length_unchecked P src.len config))
    let dp ← slice_mut dst.ptr dst.len
    -- `&mut dst[..encoded_len]`
    let dp ← retag .mut dp dst.len
    let dp ← call do
      let dp ← arg .mut dp dst.len
      prog (assert (encoded_len ≤ dst.len))
      retag .mut dp encoded_len
    let bp ← prog (liftO (P.addU b p))
    let chunks := bp / p
    let a ← prog (liftO (P.mulU chunks 3))
    let sc ← call (arg .shared sp src.len)
    prog (assert (a ≠ 0))
    let b ← prog (liftO (P.mulU chunks 4))
    let dc ← retag .mut dp encoded_len
    let dc ← call (arg .mut dc encoded_len)
    prog (assert (b ≠ 0))
    return .par (.job i config a b (min (Borrow.Base64.chunk_count src.len a) (Borrow.Base64.chunk_count encoded_len b)) ⟨sc, src.len⟩ ⟨dc, encoded_len⟩) do
      let ptr ← as_mut_ptr dp encoded_len
      let r ← slice_mut ptr encoded_len
      return ⟨r, encoded_len⟩

end Base64
end Simd.Tree
