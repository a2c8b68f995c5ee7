import Verif.Model.BorrowCalls
import Verif.Spec.Footprint
/-
What a function may do to the borrow stacks of the memory it is lent.
-/
namespace Simd.Spec
open Borrow

/-- A state that programs can get into: every tag in a stack has been given out, and only calls that have not returned protect anything. -/
def Sound (s : State) : Prop := ∀ b i, ∀ it ∈ s.stack b i, it.tag < s.next ∧ ∀ f, it.prot = some f → f ≤ s.frame

/-- How a byte is lent to a function: not at all, with `&` made from tag `t`, with `&mut` (or a pointer to write through) with tag `t`; or it is in memory that the function
allocates or deallocates. -/
inductive Loan where
  | none
  | shared (t : Nat)
  | excl (t : Nat)
  | own

/-- The item was made between `s` and `s'` and protects nothing. -/
def NewItem (s s' : State) (it : Item) : Prop := s.next ≤ it.tag ∧ it.tag < s'.next ∧ it.prot = none

/-- The stack of a byte before and after: unchanged if it is not lent; with `&` it may have been read through the lender's tag, and there may be new items for reading only above;
with `&mut` it may have been written through the lender's tag, and there may be new items above; memory that the function allocates or deallocates has new items only. -/
def StackAfter (s s' : State) (l : Loan) (st st' : Stack) : Prop :=
  st' = st ∨ match l with
    | .none => False
    | .shared t => ∃ r new, st.read t = some r ∧ st' = new ++ r ∧ ∀ it ∈ new, NewItem s s' it ∧ it.perm = .sharedRO
    | .excl t => ∃ w new, st.write t = some w ∧ st' = new ++ w ∧ ∀ it ∈ new, NewItem s s' it
    | .own => ∀ it ∈ st', NewItem s s' it

/-- The state after a call to which byte `i` of allocation `b` was lent as `G b i` says. -/
structure AfterCall (s s' : State) (G : Nat → Nat → Loan) : Prop where
  next : s.next ≤ s'.next
  frame : s'.frame = s.frame
  home : ∀ t, t < s.next → s'.home t = s.home t
  stack : ∀ b i, StackAfter s s' (G b i) (s.stack b i) (s'.stack b i)

/-- Where a tagged pointer points to. -/
def place (s : State) (p : Ptr) : Ptr := ⟨s.home p.buf, p.off⟩

/-- The `n` bytes at `p` may be read through `p`. -/
def Readable (s : State) (p : Ptr) (n : Nat) : Prop := ∀ b i, In (place s p) n b i → ((s.stack b i).read p.buf).isSome

/-- The `n` bytes at `p` may be written through `p`. -/
def Mutable (s : State) (p : Ptr) (n : Nat) : Prop := ∀ b i, In (place s p) n b i → ((s.stack b i).write p.buf).isSome

/-- The `n` bytes at `p` have an item for `p` on top that is of the given permission and protects nothing. -/
def OnTop (s : State) (perm : Perm) (p : Ptr) (n : Nat) : Prop := ∀ b i, In (place s p) n b i → ∃ rest, s.stack b i = ⟨perm, p.buf, none⟩ :: rest

/-- The call with plain pointers in place of the tagged ones. -/
def untag {α : Type} (s : State) : Call α → Call α
  | .base64Encode i config src dst => .base64Encode i config ⟨place s src.ptr, src.len⟩ ⟨place s dst.ptr, dst.len⟩
  | .base64Decode i config src dst => .base64Decode i config ⟨place s src.ptr, src.len⟩ ⟨place s dst.ptr, dst.len⟩
  | .base64Inplace i config data => .base64Inplace i config ⟨place s data.ptr, data.len⟩
  | .base64Check i config data => .base64Check i config ⟨place s data.ptr, data.len⟩
  | .forgiving fi di src dst => .forgiving fi di ⟨place s src.ptr, src.len⟩ ⟨place s dst.ptr, dst.len⟩
  | .forgivingInplace fi di data => .forgivingInplace fi di ⟨place s data.ptr, data.len⟩
  | .base32Encode w i config src dst => .base32Encode w i config ⟨place s src.ptr, src.len⟩ ⟨place s dst.ptr, dst.len⟩
  | .base32Decode w i config src dst => .base32Decode w i config ⟨place s src.ptr, src.len⟩ ⟨place s dst.ptr, dst.len⟩
  | .base32Inplace w i config data => .base32Inplace w i config ⟨place s data.ptr, data.len⟩
  | .base32Check i config data => .base32Check i config ⟨place s data.ptr, data.len⟩
  | .hexEncode i case src dst => .hexEncode i case ⟨place s src.ptr, src.len⟩ ⟨place s dst.ptr, dst.len⟩
  | .hexDecode i src dst => .hexDecode i ⟨place s src.ptr, src.len⟩ ⟨place s dst.ptr, dst.len⟩
  | .hexInplace i data => .hexInplace i ⟨place s data.ptr, data.len⟩
  | .hexCheck i data => .hexCheck i ⟨place s data.ptr, data.len⟩
  | .uuidParse si hi src dst => .uuidParse si hi ⟨place s src.ptr, src.len⟩ (place s dst)
  | .uuidParseSimple i src dst => .uuidParseSimple i ⟨place s src.ptr, src.len⟩ (place s dst)
  | .uuidParseHyphenated i src dst => .uuidParseHyphenated i ⟨place s src.ptr, src.len⟩ (place s dst)
  | .uuidFormatSimple i case src dst => .uuidFormatSimple i case (place s src) (place s dst)
  | .uuidFormatHyphenated i case src dst => .uuidFormatHyphenated i case (place s src) (place s dst)
  | .isAscii x64 i data => .isAscii x64 i ⟨place s data.ptr, data.len⟩
  | .isUtf32le i data => .isUtf32le i ⟨place s data.ptr, data.len⟩
  | .swap t i src dst => .swap t i ⟨place s src.ptr, src.len⟩ ⟨place s dst.ptr, dst.len⟩
  | .swapInplace t i data => .swapInplace t i ⟨place s data.ptr, data.len⟩

/-- The caller may lend what the call borrows: it may read through the one tag and write through the other. -/
structure Lends {α : Type} (s : State) (c : Call α) : Prop where
  shared_tag : c.shared.1.buf < s.next
  excl_tag : c.exclusive.1.buf < s.next
  readable : Readable s c.shared.1 c.shared.2
  mutable : Mutable s c.exclusive.1 c.exclusive.2

open Classical in
/-- What the call borrows, byte by byte. -/
noncomputable def loans {α : Type} (s : State) (c : Call α) (b i : Nat) : Loan :=
  if In (place s c.shared.1) c.shared.2 b i then .shared c.shared.1.buf
  else if In (place s c.exclusive.1) c.exclusive.2 b i then .excl c.exclusive.1.buf
  else .none

/-- The tagged slice `r` that was returned is the slice `r'` of elements of `k` bytes, and is the only reference to it that is in use. -/
def FreshSlice (k : Nat) (s : State) (r r' : Slice) : Prop := r' = ⟨place s r.ptr, r.len⟩ ∧ r.ptr.buf < s.next ∧ OnTop s .unique r.ptr (k * r.len)

/-- What a call returns with tags, compared with what it returns without. -/
def SameResult (s : State) : {α : Type} → Call α → α → α → Prop
  | _, .swap t .., r, r' => FreshSlice t.size s r r'
  | _, .base64Encode .., r, r' | _, .base64Decode .., r, r' | _, .base64Inplace .., r, r' | _, .forgiving .., r, r' | _, .forgivingInplace .., r, r' | _, .base32Encode .., r, r'
  | _, .base32Decode .., r, r' | _, .base32Inplace .., r, r' | _, .hexEncode .., r, r' | _, .hexDecode .., r, r' | _, .hexInplace .., r, r' | _, .uuidParse .., r, r'
  | _, .uuidParseSimple .., r, r' | _, .uuidParseHyphenated .., r, r' | _, .uuidFormatSimple .., r, r' | _, .uuidFormatHyphenated .., r, r' => FreshSlice 1 s r r'
  | _, .base64Check .., r, r' | _, .base32Check .., r, r' | _, .hexCheck .., r, r' | _, .swapInplace .., r, r' => r = r'
  | _, .isAscii .., r, r' | _, .isUtf32le .., r, r' => r = r'

/-- The call with borrow stacks, from `s`, ends like the run `o` of the program without them: not with undefined behaviour, with the same memory and the same result; and the stacks changed only
as the loans allow. -/
def Obeys {α : Type} (P : Plat) (s : State) (c : Call α) (o : Out α) : Prop :=
  match c.borrow P s, o with
  | .ok r s', .ok r' m => s'.mem = m ∧ AfterCall s s' (loans s c) ∧ SameResult s' c r r'
  | .err s', .err m => s'.mem = m ∧ AfterCall s s' (loans s c)
  | .panic, .panic => True
  | _, _ => False

/-- Calls made one after the other with borrow stacks. An `Err` does not stop the caller. -/
def inTurn (P : Plat) : List (Σ α : Type, Call α) → BProg Unit
  | [], s => .ok () s
  | c :: cs, s =>
    match c.2.borrow P s with
    | .ok _ s' | .err s' => inTurn P cs s'
    | .panic => .panic
    | .ub => .ub

/-- The same calls without borrow stacks. -/
def inTurnPlain (P : Plat) : List (Σ α : Type, Call α) → Mem → Out Unit
  | [], m => .ok () m
  | c :: cs, m =>
    match (c.2.prog P).run m with
    | .ok _ m' | .err m' => inTurnPlain P cs m'
    | .panic => .panic
    | .ub => .ub

/-- Every call of the list finds its arguments as safe Rust guarantees. -/
def BorrowInTurn (P : Plat) (B : {α : Type} → Mem → Call α → Prop) : List (Σ α : Type, Call α) → Mem → Prop
  | [], _ => True
  | c :: cs, m => B m c.2 ∧ ∀ m', ((∃ r, (c.2.prog P).run m = .ok r m') ∨ (c.2.prog P).run m = .err m') → BorrowInTurn P B cs m'

/-- The calls go through one tag for each byte. -/
def OneTag (s : State) (cs : List (Σ α : Type, Call α)) : Prop :=
  ∃ own : Nat → Nat → Nat, ∀ c ∈ cs, ∀ b i,
    (In (place s c.2.shared.1) c.2.shared.2 b i → c.2.shared.1.buf = own b i) ∧ (In (place s c.2.exclusive.1) c.2.exclusive.2 b i → c.2.exclusive.1.buf = own b i)

end Simd.Spec
