import Verif.Spec.Client
import Verif.Spec.CallMeans
/-
Programs that use the crates, without memory: variables hold bytes, and the functions are what `CallMeans` and `HeapMeans` say.
-/
namespace Simd.Client
open Borrow Spec

/-- What the variables hold: a type and bytes. -/
abbrev Store : Type := Nat → Option (EncodeTy × List Byte)

namespace Store

/-- The store after an assignment. -/
def set (a : Store) (x : Nat) (v : Option (EncodeTy × List Byte)) : Store := fun y => if y = x then v else a y

/-- `xs` is the slice of `n` bytes at `p`. -/
def Slice (a : Store) (p : Ptr) (n : Nat) (xs : List Byte) : Prop := ∃ ty ys, a p.buf = some (ty, ys) ∧ p.off + n ≤ ys.length ∧ xs = (ys.drop p.off).take n

end Store

/-- `ys'` is `ys` with `out` at `off`, as far as it is inside (the rest is spare capacity); `n` bytes there may have changed, the others have not. -/
def Patched (ys ys' : List Byte) (off n : Nat) (out : List Byte) : Prop :=
  ys'.length = ys.length ∧ (∀ k, k < ys.length → ¬ (off ≤ k ∧ k < off + n) → ys'[k]? = ys[k]?) ∧ ∀ j, j < out.length → off + j < ys.length → ys'[off + j]? = out[j]?

/-- The type of the new value that the call gives. -/
def madeTy {α : Type} : HeapCall α → EncodeTy
  | .base64Encode _ _ _ ty | .base32Encode _ _ _ _ ty | .hexEncode _ _ _ ty => ty
  | .base64Decode _ _ _ ty | .base32Decode _ _ _ _ ty | .hexDecode _ _ ty => ty.ty
  | _ => .vec

/-- The type of the same bytes, not as text. -/
def plainTy : EncodeTy → EncodeTy
  | .str => .bytes
  | .string => .vec
  | ty => ty

/-- What a program gets to know of a step, besides what its variables then hold. -/
inductive Seen where
  | nothing
  /-- An `Err`. -/
  | failed
  /-- The bytes read. -/
  | bytes (bs : List Byte)
  /-- The length of the result. -/
  | length (n : Nat)
  /-- The answer of a test. -/
  | answer (b : Bool)

/-- The part of a result that does not depend on addresses. -/
def view : {α : Type} → Call α → α → Seen
  | _, .base64Encode .., r | _, .base64Decode .., r | _, .base64Inplace .., r | _, .forgiving .., r | _, .forgivingInplace .., r | _, .base32Encode .., r | _, .base32Decode .., r
  | _, .base32Inplace .., r | _, .hexEncode .., r | _, .hexDecode .., r | _, .hexInplace .., r | _, .uuidParse .., r | _, .uuidParseSimple .., r | _, .uuidParseHyphenated .., r
  | _, .uuidFormatSimple .., r | _, .uuidFormatHyphenated .., r | _, .swap .., r => .length r.len
  | _, .isAscii .., r | _, .isUtf32le .., r => .answer r
  | _, .base64Check .., _ | _, .base32Check .., _ | _, .hexCheck .., _ | _, .swapInplace .., _ => .nothing

/-- The same of a result that is allocated, or of the vector or string that was appended to; `o` is what the variable then holds. -/
def viewHeap (o : Owned) : {α : Type} → HeapCall α → α → Seen
  | _, .base64DecodeAppend .., r | _, .base32DecodeAppend .., r | _, .hexDecodeAppend .., r =>
    match r.2 with
    | .error _ => .failed
    | .ok _ => .length (len o)
  | _, _, _ => .length (len o)

/-- What the program gets to know of a step. -/
def seen (P : Plat) (w : World) : Op → Seen
  | .read x off n =>
    match prog (loadBytes ⟨w.tag x, off⟩ n) w.st with
    | .ok bs _ => .bytes bs
    | _ => .nothing
  | .call c =>
    match (w.args c).borrow P w.st with
    | .ok r _ => view c r
    | .err _ => .failed
    | _ => .nothing
  | .heap x c =>
    match (w.argsHeap c).borrow P w.st with
    | .ok r _ => viewHeap (result (w.vars x) c r) c r
    | .err _ => .failed
    | _ => .nothing
  | _ => .nothing

/-- What the program gets to know of a call that computes `ys` from `xs`. -/
def CallSees (xs ys : List Byte) (v : Seen) {α : Type} : Call α → Prop
  | .base64Check .. | .base32Check .. | .hexCheck .. | .swapInplace .. => v = .nothing
  | .isAscii .. => ∃ b, v = .answer b ∧ (b = true ↔ ∀ c ∈ xs, c.toNat < 0x80)
  | .isUtf32le .. => ∃ b, v = .answer b ∧ (b = true ↔ ∃ ws : List (BitVec 32), wordBytes 4 ws = xs ∧ ∀ w ∈ ws, IsScalar w)
  | .swap t .. => ∃ k, v = .length k ∧ t.size * k = ys.length
  | _ => v = .length ys.length

/-- The same, if it can fail. -/
def SeesResult (xs : List Byte) (v : Seen) {α : Type} (c : Call α) : Option (List Byte) → Prop
  | some ys => CallSees xs ys v c
  | none => v = .failed

/-- What a step makes of the store, and what the program gets to know. -/
def Step (a : Store) (v : Seen) (a' : Store) : Op → Prop
  | .new x text bs _ => v = .nothing ∧ a' = a.set x (some (if text then .string else .vec, bs))
  | .read x off n => ∃ xs, a.Slice ⟨x, off⟩ n xs ∧ v = .bytes xs ∧ a' = a
  | .write x off bs => v = .nothing ∧ ∃ ty ys, a x = some (ty, ys) ∧ a' = a.set x (some (ty, ys.take off ++ bs ++ ys.drop (off + bs.length)))
  | .call c => ∃ xs res, a.Slice (input c).1 (input c).2 xs ∧ CallMeans xs c.exclusive.2 res c ∧ SeesResult xs v c res ∧
      ∃ ty ys ys', a c.exclusive.1.buf = some (ty, ys) ∧ a' = a.set c.exclusive.1.buf (some (ty, ys')) ∧ Patched ys ys' c.exclusive.1.off (touched xs c.exclusive.2 res c) (res.getD [])
  | .heap x c => ∃ xs res, a.Slice c.shared.ptr c.shared.len xs ∧ HeapMeans xs res c ∧
    match c.vec, res with
    | none, none => v = .failed ∧ a' = a
    | none, some out => v = .length out.length ∧ a' = a.set x (some (madeTy c, out))
    | some _, none => v = .failed ∧ a' = a
    | some _, some out => ∃ ty ys, a x = some (ty, ys) ∧ v = .length (ys ++ out).length ∧ a' = a.set x (some (ty, ys ++ out))
  | .move x y => v = .nothing ∧ a' = fun z => if z = y then a x else if z = x then none else a z
  | .truncate x n => v = .nothing ∧ ∃ ys, a x = some (.vec, ys) ∧ a' = a.set x (some (.vec, ys.take n))
  | .intoBytes x => v = .nothing ∧ ∃ ty ys, a x = some (ty, ys) ∧ a' = a.set x (some (plainTy ty, ys))
  | .drop x => v = .nothing ∧ a' = a.set x none

/-- The variables of the world hold what the store says. -/
def Shows (w : World) (a : Store) : Prop :=
  ∀ x, w.vars x = none ∧ a x = none ∨ ∃ o ty ys, w.vars x = some o ∧ a x = some (ty, ys) ∧ o.HasTy ty ∧ w.Contains o ys

/-- The call without its implementation. -/
def anyImpl {α : Type} : Call α → Call α
  | .base64Encode _ config src dst => .base64Encode none config src dst
  | .base64Decode _ config src dst => .base64Decode none config src dst
  | .base64Inplace _ config data => .base64Inplace none config data
  | .base64Check _ config data => .base64Check none config data
  | .forgiving _ _ src dst => .forgiving none none src dst
  | .forgivingInplace _ _ data => .forgivingInplace none none data
  | .base32Encode _ _ config src dst => .base32Encode false none config src dst
  | .base32Decode _ _ config src dst => .base32Decode false none config src dst
  | .base32Inplace _ _ config data => .base32Inplace false none config data
  | .base32Check _ config data => .base32Check none config data
  | .hexEncode _ case src dst => .hexEncode none case src dst
  | .hexDecode _ src dst => .hexDecode none src dst
  | .hexInplace _ data => .hexInplace none data
  | .hexCheck _ data => .hexCheck none data
  | .uuidParse _ _ src dst => .uuidParse none none src dst
  | .uuidParseSimple _ src dst => .uuidParseSimple none src dst
  | .uuidParseHyphenated _ src dst => .uuidParseHyphenated none src dst
  | .uuidFormatSimple _ case src dst => .uuidFormatSimple none case src dst
  | .uuidFormatHyphenated _ case src dst => .uuidFormatHyphenated none case src dst
  | .isAscii _ _ data => .isAscii false none data
  | .isUtf32le _ data => .isUtf32le none data
  | .swap t _ src dst => .swap t none src dst
  | .swapInplace t _ data => .swapInplace t none data

/-- The call without its implementation, and without what depends on the allocator. -/
def anyImplHeap {α : Type} : HeapCall α → HeapCall α
  | .base64Encode _ config data ty => .base64Encode none config data ty
  | .base64Decode _ config data ty => .base64Decode none config data ty
  | .base64EncodeAppend _ _ config src v => .base64EncodeAppend 0 none config src { v with cap := 0 }
  | .base64DecodeAppend _ _ config src v => .base64DecodeAppend 0 none config src { v with cap := 0 }
  | .forgiving _ _ _ data => .forgiving 0 none none data
  | .base32Encode _ _ config data ty => .base32Encode false none config data ty
  | .base32Decode _ _ config data ty => .base32Decode false none config data ty
  | .base32EncodeAppend _ _ _ config src v => .base32EncodeAppend false 0 none config src { v with cap := 0 }
  | .base32DecodeAppend _ _ _ config src v => .base32DecodeAppend false 0 none config src { v with cap := 0 }
  | .hexEncode _ case data ty => .hexEncode none case data ty
  | .hexDecode _ data ty => .hexDecode none data ty
  | .hexEncodeAppend _ _ case src v => .hexEncodeAppend 0 none case src { v with cap := 0 }
  | .hexDecodeAppend _ _ src v => .hexDecodeAppend 0 none src { v with cap := 0 }

/-- The step as it is in the source of the program: the implementations and what depends on the allocator are not in it. -/
def source : Op → Op
  | .call c => .call (anyImpl c)
  | .heap x c => .heap x (anyImplHeap c)
  | .new x text bs _ => .new x text bs 0
  | op => op

/-- The step leaves nothing open: it is not a decoding of slices that fails, or a forgiving one, after which the rest of the destination is not specified. -/
def Exact (a : Store) : Op → Prop
  | .call c => ∀ xs res, a.Slice (input c).1 (input c).2 xs → CallMeans xs c.exclusive.2 res c → touched xs c.exclusive.2 res c ≤ (res.getD []).length
  | _ => True

/-- A program: the next step, in its source, depends on what it got to know of the steps before. -/
abbrev Program : Type 1 := List Seen → Option Op

/-- The runs of a program on a machine: what it got to know and the world it is in, after each number of steps. The machine adds the implementations that it uses, and capacities. -/
inductive Run (M : Machine) (p : Program) : List Seen → World → Prop where
  | start : Run M p [] .start
  | step {h : List Seen} {w w' : World} {op : Op} : Run M p h w → p h = some (source op) → Legal M w op → exec M.P w op = .ok w' → Run M p (h ++ [seen M.P w op]) w'

/-- The same without memory or a machine. -/
inductive Eval (p : Program) : List Seen → Store → Prop where
  | start : Eval p [] fun _ => none
  | step {h : List Seen} {a a' : Store} {op : Op} {v : Seen} : Eval p h a → p h = some op → Step a v a' op → Eval p (h ++ [v]) a'

/-- No step of the program leaves anything open. -/
def Settled (p : Program) : Prop := ∀ h a op, Eval p h a → p h = some op → Exact a op

end Simd.Client
