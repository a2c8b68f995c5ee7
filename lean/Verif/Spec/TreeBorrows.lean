import Verif.Model.TreeCalls
import Verif.Spec.Borrows
/-
What a function may do to the borrow trees of the memory it is lent. (The definitions that also exist in Verif/Spec/Borrows.lean are the same for borrow trees.)
-/
namespace Simd.Tree
open Spec (In)

/-- A state that programs can get into: the tags are the nodes of trees, one for each allocation, the allocations exist, and the protected tags have been given out. -/
structure Sound (s : State) : Prop where
  guard : ∀ u, s.prot u = true → u < s.next
  alloc : ∀ t, t < s.next → s.home t < s.mem.nbuf
  self : ∀ t, t < s.next → s.up t t = true
  old : ∀ t u, t < s.next → s.up t u = true → u ≤ t
  home : ∀ t u, t < s.next → s.up t u = true → s.home u = s.home t
  trans : ∀ t u v, t < s.next → s.up t u = true → s.up u v = true → s.up t v = true
  line : ∀ t u v, t < s.next → s.up t u = true → s.up t v = true → s.up u v = true ∨ s.up v u = true

/-- How a byte is lent to a function: not at all, with `&` made from tag `t`, or with `&mut` (or a pointer to write through) with tag `t`. -/
inductive Loan where
  | none
  | shared (t : Nat)
  | excl (t : Nat)

/-- Nothing has happened to a byte of allocation `b`, as far as the tags of `s` are concerned. -/
def Same (s : State) (b : Nat) (c c' : Nat → Cell) : Prop := ∀ u, s.Has b u → c' u = c u

/-- A byte of allocation `b` has been read (written) through tag `t`, which was allowed, as far as the tags of `s` are concerned. -/
def Accessed (s : State) (w : Bool) (t b : Nat) (c c' : Nat → Cell) : Prop := ∀ u, s.Has b u → (c u).step w (s.up t u) (s.prot u) = some (c' u)

/-- What may have happened to a byte: nothing if it is not lent, a read through the lender's tag if it is lent with `&`, a read or a write through the lender's tag with `&mut`. However often the function
accessed the byte, and through however many references of its own, the state for the tags that existed before is as after a single access. -/
def CellAfter (s : State) (l : Loan) (b : Nat) (c c' : Nat → Cell) : Prop :=
  Same s b c c' ∨ match l with
    | .none => False
    | .shared t => Accessed s false t b c c'
    | .excl t => Accessed s false t b c c' ∨ Accessed s true t b c c'

/-- The state after a call to which byte `i` of allocation `b` was lent as `G b i` says: no tag is protected that was not before, and nothing has been deallocated. -/
structure AfterCall (s s' : State) (G : Nat → Nat → Loan) : Prop where
  sound : Sound s'
  next : s.next ≤ s'.next
  guard : s'.guard = s.guard
  fresh : ∀ t, s.next ≤ t → s'.prot t = false
  home : ∀ t, t < s.next → s'.home t = s.home t
  up : ∀ t, t < s.next → s'.up t = s.up t
  nbuf : s.mem.nbuf ≤ s'.mem.nbuf
  size : ∀ b u, s.Has b u → s'.mem.size b = s.mem.size b
  live : ∀ b u, s.Has b u → s'.freed b = s.freed b
  kept : ∀ b, b < s.mem.nbuf → s'.freed b = s.freed b
  cell : ∀ b i, CellAfter s (G b i) b (s.cell b i) (s'.cell b i)

/-- Where a tagged pointer points to. -/
def place (s : State) (p : Ptr) : Ptr := ⟨s.home p.buf, p.off⟩

/-- An access to byte `i` of allocation `b` through tag `t` is allowed. -/
def Allowed (s : State) (w : Bool) (t b i : Nat) : Prop := i < s.mem.size b ∧ s.freed b = false ∧ ∀ u, s.Has b u → (s.step w t b i u).isSome

/-- The tag of `p` has been given out, and the `n` bytes at `p` may be read through it. -/
def Readable (s : State) (p : Ptr) (n : Nat) : Prop := p.buf < s.next ∧ ∀ b i, In (place s p) n b i → Allowed s false p.buf b i

/-- The tag of `p` has been given out, and the `n` bytes at `p` may be written through it. -/
def Mutable (s : State) (p : Ptr) (n : Nat) : Prop := p.buf < s.next ∧ ∀ b i, In (place s p) n b i → Allowed s true p.buf b i

/-- The call with plain pointers in place of the tagged ones. -/
def untag {α : Type} (s : State) : Call α → Call α
  | .base64Encode i config src dst => .base64Encode i config ⟨place s src.ptr, src.len⟩ ⟨place s dst.ptr, dst.len⟩
  | .base64Decode i config src dst => .base64Decode i config ⟨place s src.ptr, src.len⟩ ⟨place s dst.ptr, dst.len⟩
  | .base64Inplace i config data => .base64Inplace i config ⟨place s data.ptr, data.len⟩
  | .base64Check i config data => .base64Check i config ⟨place s data.ptr, data.len⟩
  | .forgiving fi di src dst => .forgiving fi di ⟨place s src.ptr, src.len⟩ ⟨place s dst.ptr, dst.len⟩
  | .forgivingInplace fi di data => .forgivingInplace fi di ⟨place s data.ptr, data.len⟩
  | .base32Encode w i config src dst => .base32Encode w i config ⟨place s src.ptr, src.len⟩ ⟨place s dst.ptr, dst.len⟩
  | .base32Decode w i config src dst => .base32Decode w i config ⟨place s src.ptr, src.len⟩ ⟨place s dst.ptr, dst.len⟩
  | .base32Inplace w i config data => .base32Inplace w i config ⟨place s data.ptr, data.len⟩
  | .base32Check i config data => .base32Check i config ⟨place s data.ptr, data.len⟩
  | .hexEncode i case src dst => .hexEncode i case ⟨place s src.ptr, src.len⟩ ⟨place s dst.ptr, dst.len⟩
  | .hexDecode i src dst => .hexDecode i ⟨place s src.ptr, src.len⟩ ⟨place s dst.ptr, dst.len⟩
  | .hexInplace i data => .hexInplace i ⟨place s data.ptr, data.len⟩
  | .hexCheck i data => .hexCheck i ⟨place s data.ptr, data.len⟩
  | .uuidParse si hi src dst => .uuidParse si hi ⟨place s src.ptr, src.len⟩ (place s dst)
  | .uuidParseSimple i src dst => .uuidParseSimple i ⟨place s src.ptr, src.len⟩ (place s dst)
  | .uuidParseHyphenated i src dst => .uuidParseHyphenated i ⟨place s src.ptr, src.len⟩ (place s dst)
  | .uuidFormatSimple i case src dst => .uuidFormatSimple i case (place s src) (place s dst)
  | .uuidFormatHyphenated i case src dst => .uuidFormatHyphenated i case (place s src) (place s dst)
  | .isAscii x64 i data => .isAscii x64 i ⟨place s data.ptr, data.len⟩
  | .isUtf32le i data => .isUtf32le i ⟨place s data.ptr, data.len⟩
  | .swap t i src dst => .swap t i ⟨place s src.ptr, src.len⟩ ⟨place s dst.ptr, dst.len⟩
  | .swapInplace t i data => .swapInplace t i ⟨place s data.ptr, data.len⟩

/-- The caller may lend what the call borrows: it may read through the one tag and write through the other. -/
structure Lends {α : Type} (s : State) (c : Call α) : Prop where
  readable : Readable s c.shared.1 c.shared.2
  mutable : Mutable s c.exclusive.1 c.exclusive.2

open Classical in
/-- What the call borrows, byte by byte. -/
noncomputable def loans {α : Type} (s : State) (c : Call α) (b i : Nat) : Loan :=
  if In (place s c.shared.1) c.shared.2 b i then .shared c.shared.1.buf
  else if In (place s c.exclusive.1) c.exclusive.2 b i then .excl c.exclusive.1.buf
  else .none

/-- Tag `r` was made between `s` and `s'`, directly or indirectly from tag `q`: to the tags of `s`, an access through `r` is one through `q`. -/
structure Made (s s' : State) (q r : Nat) : Prop where
  lo : s.next ≤ r
  hi : r < s'.next
  line : ∀ u, u < s.next → s'.up r u = s.up q u

/-- The tagged slice `r` that was returned is the slice `r'` of elements of `k` bytes, is a new reference made from tag `q`, and may be written through. -/
def FreshSlice (k : Nat) (s s' : State) (q : Nat) (r r' : Slice) : Prop := r' = ⟨place s' r.ptr, r.len⟩ ∧ Made s s' q r.ptr.buf ∧ Mutable s' r.ptr (k * r.len)

/-- What a call returns with tags, compared with what it returns without. -/
def SameResult (s s' : State) : {α : Type} → Call α → α → α → Prop
  | _, .swap t _ _ dst, r, r' => FreshSlice t.size s s' dst.ptr.buf r r'
  | _, .base64Encode _ _ _ dst, r, r' | _, .base64Decode _ _ _ dst, r, r' | _, .forgiving _ _ _ dst, r, r' | _, .base32Encode _ _ _ _ dst, r, r' | _, .base32Decode _ _ _ _ dst, r, r'
  | _, .hexEncode _ _ _ dst, r, r' | _, .hexDecode _ _ dst, r, r' => FreshSlice 1 s s' dst.ptr.buf r r'
  | _, .base64Inplace _ _ data, r, r' | _, .forgivingInplace _ _ data, r, r' | _, .base32Inplace _ _ _ data, r, r' | _, .hexInplace _ data, r, r' => FreshSlice 1 s s' data.ptr.buf r r'
  | _, .uuidParse _ _ _ dst, r, r' | _, .uuidParseSimple _ _ dst, r, r' | _, .uuidParseHyphenated _ _ dst, r, r' | _, .uuidFormatSimple _ _ _ dst, r, r' | _, .uuidFormatHyphenated _ _ _ dst, r, r' =>
    FreshSlice 1 s s' dst.buf r r'
  | _, .base64Check .., r, r' | _, .base32Check .., r, r' | _, .hexCheck .., r, r' | _, .swapInplace .., r, r' => r = r'
  | _, .isAscii .., r, r' | _, .isUtf32le .., r, r' => r = r'

/-- The call with borrow trees, from `s`, ends like the run `o` of the program without them: not with undefined behaviour, with the same memory and the same result; and the trees changed only
as the loans allow. -/
def Obeys {α : Type} (P : Plat) (s : State) (c : Call α) (o : Out α) : Prop :=
  match c.tree P s, o with
  | .ok r s', .ok r' m => s'.mem = m ∧ AfterCall s s' (loans s c) ∧ SameResult s s' c r r'
  | .err s', .err m => s'.mem = m ∧ AfterCall s s' (loans s c)
  | .panic, .panic => True
  | _, _ => False

/-- Calls made one after the other with borrow trees. An `Err` does not stop the caller. -/
def inTurn (P : Plat) : List (Σ α : Type, Call α) → BProg Unit
  | [], s => .ok () s
  | c :: cs, s =>
    match c.2.tree P s with
    | .ok _ s' | .err s' => inTurn P cs s'
    | .panic => .panic
    | .ub => .ub

/-- The calls go through one tag for each byte. -/
def OneTag (s : State) (cs : List (Σ α : Type, Call α)) : Prop :=
  ∃ own : Nat → Nat → Nat, ∀ c ∈ cs, ∀ b i,
    (In (place s c.2.shared.1) c.2.shared.2 b i → c.2.shared.1.buf = own b i) ∧ (In (place s c.2.exclusive.1) c.2.exclusive.2 b i → c.2.exclusive.1.buf = own b i)

end Simd.Tree
