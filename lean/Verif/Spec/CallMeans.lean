import Verif.Spec.Means
import Verif.Spec.Raw
import Verif.Spec.Unicode
import Verif.Spec.Uuid
import Verif.Model.Calls
/-
What the functions on slices compute from the bytes they are given, in one definition: no memory, no implementations.
-/
namespace Simd.Spec

/-- The bytes, if there is room for them. -/
def fits (d : Nat) (t : List Byte) : Option (List Byte) := if t.length ≤ d then some t else none

/-- `ys` is `xs` with every group of `n` bytes in reverse order. -/
def GroupsReversed (n : Nat) (xs ys : List Byte) : Prop := ys.length = xs.length ∧ ∀ k, k < xs.length → ys[k]? = xs[n * (k / n) + (n - 1 - k % n)]?

/-- The one value with a property, if there is one. -/
def TheOnly (P : List Byte → Prop) : Option (List Byte) → Prop
  | some ys => P ys
  | none => ¬ ∃ ys, P ys

/-- What a call computes from the bytes `xs` with room for `d` bytes in the destination: bytes, or an error. (For the tests no bytes.) -/
def CallMeans {α : Type} (xs : List Byte) (d : Nat) (res : Option (List Byte)) : Call α → Prop
  | .base64Encode _ config _ _ => ∃ url pad, Base64.IsVariant config url pad ∧ res = fits d (base64 url pad xs)
  | .base64Decode _ config _ _ => ∃ url pad, Base64.IsVariant config url pad ∧ ∃ r, Inverse (base64 url pad) xs r ∧ res = r.bind (fits d)
  | .base64Inplace _ config _ => ∃ url pad, Base64.IsVariant config url pad ∧ Inverse (base64 url pad) xs res
  | .base64Check _ config _ => ∃ url pad, Base64.IsVariant config url pad ∧ ∃ r, Inverse (base64 url pad) xs r ∧ res = r.map fun _ => []
  | .forgiving .. => res = if xs.length ≤ d then forgivingDecode xs else none
  | .forgivingInplace .. => res = forgivingDecode xs
  | .base32Encode _ _ config _ _ => ∃ hex pad, Base32.IsVariant config hex pad ∧ res = fits d (base32 hex pad xs)
  | .base32Decode _ _ config _ _ => ∃ hex pad, Base32.IsVariant config hex pad ∧ ∃ r, Inverse (base32 hex pad) xs r ∧ res = r.bind (fits d)
  | .base32Inplace _ _ config _ => ∃ hex pad, Base32.IsVariant config hex pad ∧ Inverse (base32 hex pad) xs res
  | .base32Check _ config _ => ∃ hex pad, Base32.IsVariant config hex pad ∧ ∃ r, Inverse (base32 hex pad) xs r ∧ res = r.map fun _ => []
  | .hexEncode _ case _ _ => res = fits d (hexEncode (case == .upper) xs)
  | .hexDecode .. => ∃ r, FromHex xs r ∧ res = r.bind (fits d)
  | .hexInplace .. => FromHex xs res
  | .hexCheck .. => res = if ∀ c ∈ xs, isHexDigit c then some [] else none
  | .uuidParse .. => TheOnly (IsUuid xs) res
  | .uuidParseSimple .. => TheOnly (IsUuidSimple xs) res
  | .uuidParseHyphenated .. => TheOnly (IsUuidHyphenated xs) res
  | .uuidFormatSimple _ case _ _ => res = some (uuidSimple (case == .upper) xs)
  | .uuidFormatHyphenated _ case _ _ => res = some (uuidHyphenated (case == .upper) xs)
  | .isAscii .. | .isUtf32le .. => res = some []
  | .swap t .. | .swapInplace t .. => ∃ ys, res = some ys ∧ GroupsReversed t.size xs ys

/-- What is returned with the bytes `ys`: the part of the destination that holds them; the answer of a test. -/
def CallReturns (xs ys : List Byte) : {α : Type} → Call α → α → Prop
  | _, .base64Encode _ _ _ dst, r | _, .base64Decode _ _ _ dst, r | _, .base64Inplace _ _ dst, r | _, .forgiving _ _ _ dst, r | _, .forgivingInplace _ _ dst, r
  | _, .base32Encode _ _ _ _ dst, r | _, .base32Decode _ _ _ _ dst, r | _, .base32Inplace _ _ _ dst, r | _, .hexEncode _ _ _ dst, r | _, .hexDecode _ _ dst, r
  | _, .hexInplace _ dst, r => r = ⟨dst.ptr, ys.length⟩
  | _, .uuidParse _ _ _ dst, r | _, .uuidParseSimple _ _ dst, r | _, .uuidParseHyphenated _ _ dst, r | _, .uuidFormatSimple _ _ _ dst, r | _, .uuidFormatHyphenated _ _ _ dst, r =>
    r = ⟨dst, ys.length⟩
  | _, .swap t _ _ dst, r => r.ptr = dst.ptr ∧ t.size * r.len = ys.length
  | _, .isAscii .., r => r = true ↔ ∀ c ∈ xs, c.toNat < 0x80
  | _, .isUtf32le .., r => r = true ↔ ∃ ws : List (BitVec 32), wordBytes 4 ws = xs ∧ ∀ w ∈ ws, IsScalar w
  | _, .base64Check .., _ | _, .base32Check .., _ | _, .hexCheck .., _ | _, .swapInplace .., _ => True

/-- The bytes that the call computes from: what it borrows with `&`, or what it changes in place. -/
def input {α : Type} : Call α → Ptr × Nat
  | .base64Inplace _ _ data | .forgivingInplace _ _ data | .base32Inplace _ _ _ data | .hexInplace _ data => (data.ptr, data.len)
  | .swapInplace t _ data => (data.ptr, t.size * data.len)
  | c => c.shared

/-- How many bytes at the start of the destination the call may have changed: those of the result; with the forgiving functions, as many as are read; if decoding fails, all. -/
def touched {α : Type} (xs : List Byte) (d : Nat) (res : Option (List Byte)) : Call α → Nat
  | .forgiving .. => if xs.length ≤ d then xs.length else 0
  | .forgivingInplace .. => xs.length
  | .base64Encode .. | .base32Encode .. | .hexEncode .. => (res.getD []).length
  | _ => match res with
    | some ys => ys.length
    | none => d

/-- The function and its parameters, without the implementation and the places of the slices. -/
def function {α : Type} : Call α → Call α
  | .base64Encode _ config _ _ => .base64Encode none config ⟨⟨0, 0⟩, 0⟩ ⟨⟨0, 0⟩, 0⟩
  | .base64Decode _ config _ _ => .base64Decode none config ⟨⟨0, 0⟩, 0⟩ ⟨⟨0, 0⟩, 0⟩
  | .base64Inplace _ config _ => .base64Inplace none config ⟨⟨0, 0⟩, 0⟩
  | .base64Check _ config _ => .base64Check none config ⟨⟨0, 0⟩, 0⟩
  | .forgiving .. => .forgiving none none ⟨⟨0, 0⟩, 0⟩ ⟨⟨0, 0⟩, 0⟩
  | .forgivingInplace .. => .forgivingInplace none none ⟨⟨0, 0⟩, 0⟩
  | .base32Encode _ _ config _ _ => .base32Encode false none config ⟨⟨0, 0⟩, 0⟩ ⟨⟨0, 0⟩, 0⟩
  | .base32Decode _ _ config _ _ => .base32Decode false none config ⟨⟨0, 0⟩, 0⟩ ⟨⟨0, 0⟩, 0⟩
  | .base32Inplace _ _ config _ => .base32Inplace false none config ⟨⟨0, 0⟩, 0⟩
  | .base32Check _ config _ => .base32Check none config ⟨⟨0, 0⟩, 0⟩
  | .hexEncode _ case _ _ => .hexEncode none case ⟨⟨0, 0⟩, 0⟩ ⟨⟨0, 0⟩, 0⟩
  | .hexDecode .. => .hexDecode none ⟨⟨0, 0⟩, 0⟩ ⟨⟨0, 0⟩, 0⟩
  | .hexInplace .. => .hexInplace none ⟨⟨0, 0⟩, 0⟩
  | .hexCheck .. => .hexCheck none ⟨⟨0, 0⟩, 0⟩
  | .uuidParse .. => .uuidParse none none ⟨⟨0, 0⟩, 0⟩ ⟨0, 0⟩
  | .uuidParseSimple .. => .uuidParseSimple none ⟨⟨0, 0⟩, 0⟩ ⟨0, 0⟩
  | .uuidParseHyphenated .. => .uuidParseHyphenated none ⟨⟨0, 0⟩, 0⟩ ⟨0, 0⟩
  | .uuidFormatSimple _ case _ _ => .uuidFormatSimple none case ⟨0, 0⟩ ⟨0, 0⟩
  | .uuidFormatHyphenated _ case _ _ => .uuidFormatHyphenated none case ⟨0, 0⟩ ⟨0, 0⟩
  | .isAscii .. => .isAscii false none ⟨⟨0, 0⟩, 0⟩
  | .isUtf32le .. => .isUtf32le none ⟨⟨0, 0⟩, 0⟩
  | .swap t _ _ _ => .swap t none ⟨⟨0, 0⟩, 0⟩ ⟨⟨0, 0⟩, 0⟩
  | .swapInplace t _ _ => .swapInplace t none ⟨⟨0, 0⟩, 0⟩

/-- A byte swap to a shorter slice. -/
def ShortSwap {α : Type} : Call α → Prop
  | .swap _ _ src dst => dst.len < src.len
  | _ => False

/-- The outcome of a call: it ends with the bytes or the error that it means, the bytes are in the destination, and nothing but the destination has changed. -/
def Computes {α : Type} (c : Call α) (m : Mem) (xs : List Byte) (o : Out α) : Prop :=
  ∃ res, CallMeans xs c.exclusive.2 res c ∧
    match o with
    | .ok r m' => ∃ ys, res = some ys ∧ CallReturns xs ys c r ∧ ys.length ≤ c.exclusive.2 ∧ Reads m' c.exclusive.1 ys ∧ OnlyChanged m m' c.exclusive.1 (touched xs c.exclusive.2 res c)
    | .err m' => res = none ∧ OnlyChanged m m' c.exclusive.1 (touched xs c.exclusive.2 res c)
    | .panic => ShortSwap c
    | .ub => False

end Simd.Spec
