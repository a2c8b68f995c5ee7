import Verif.Model.TreeCalls
import Verif.Model.HeapCalls
/-
The functions that allocate, with the owners, references and raw pointers they make, as in Verif/Model/BorrowHeap.lean, and with the rules of Verif/Model/TreeBorrows.lean.

A `Box` is a tagged `Slice`, a `Vec` or `String` a tagged `RVec`. A box that is made from a raw pointer or passed to a function gets a new tag, as a `&mut` does. A vector
contains a raw pointer: using it makes no new tag.

Not written down: functions that only pass their arguments on (`encode_type`, `from_base64_encode`, `append_base64_encode` and the like), the borrows of the `Vec` object itself
(pointer, length and capacity, which are not in the memory of the model), and what happens when a panic unwinds. Pointer arithmetic on a pointer to a deallocated block is not detected.
-/
namespace Simd.Tree

/-- `alloc` of `n` bytes. -/
def alloc (n : Nat) : BProg Ptr := prog (.alloc n fun t => .pure ⟨t, 0⟩)

/-- No tag of allocation `b` is protected. -/
def State.Open (s : State) (b : Nat) : Prop := ∀ u, u < s.next → s.home u = b → s.prot u = false

instance (s : State) (b : Nat) : Decidable (s.Open b) := inferInstanceAs (Decidable (∀ u, u < s.next → _))

/-- `dealloc` of `n` bytes: undefined behaviour unless `p` points to the start of an allocation of this size that may be written and has no protected tag. -/
def dealloc (p : Ptr) (n : Nat) : BProg Unit := fun s =>
  if p.off = 0 ∧ s.mem.size (s.home p.buf) = n ∧ s.Open (s.home p.buf) then
    match s.touch true p n with
    | some c => .ok () { s with cell := c, freed := fun b => if b = s.home p.buf then true else s.freed b }
    | none => .ub
  else .ub

/-- A condition of an unsafe function: the `n` bytes at `p` are initialised. It is no access. -/
def inited (p : Ptr) (n : Nat) : BProg Unit := fun s =>
  match s.mem.read ⟨s.home p.buf, p.off⟩ n with
  | some _ => .ok () s
  | none => .ub

/-- The operator `?` where `drop` is the end of the scope. -/
def orDrop {α : Type} (x : BProg α) (drop : BProg Unit) : BProg α := fun s =>
  match x s with
  | .err s' =>
    match drop s' with
    | .ok _ s'' => .err s''
    | .err _ | .ub => .ub
    | .panic => .panic
  | r => r

/-- `Result` as a value. -/
def attempt {α : Type} (x : BProg α) : BProg (Option α) := fun s =>
  match x s with
  | .ok a s' => .ok (some a) s'
  | .err s' => .ok none s'
  | .panic => .panic
  | .ub => .ub

/-! ### Boxes -/

/-- The end of the scope of a box; one without bytes has no allocation. -/
def drop_box (b : Slice) : BProg Unit := if b.len = 0 then pure () else dealloc b.ptr b.len

/-- `Box::into_raw` of a box of `n` bytes. -/
def into_raw (p : Ptr) (n : Nat) : BProg Ptr := call (arg .mut p n)

/-- `Box::from_raw`. -/
def from_raw (p : Ptr) (n : Nat) : BProg Ptr := retag .mut p n

/-- `alloc_uninit_bytes` (crates/vsimd/src/tools.rs:18-32). -/
def alloc_uninit_bytes (P : Plat) (len : Nat) : BProg Slice :=
  if 0 < len ∧ len ≤ P.isizeMax then do
    let p ← alloc len
    let b ← from_raw p len
    pure ⟨b, len⟩
  else prog .ub

/-- `assume_init` (crates/vsimd/src/tools.rs:37-41). -/
def assume_init (b : Slice) : BProg Slice := do
  inited b.ptr b.len
  let r ← call do
    let p ← arg .mut b.ptr b.len
    let p ← into_raw p b.len
    from_raw p b.len
  pure ⟨r, b.len⟩

/-- `boxed_str` (crates/vsimd/src/tools.rs:93-96): `from_utf8_unchecked_mut` gets `&mut *ptr` and returns `&mut *(v as *mut _)`. -/
def boxed_str (b : Slice) : BProg Slice := do
  let r ← call do
    let p ← arg .mut b.ptr b.len
    let p ← into_raw p b.len
    let p ← retag .mut p b.len
    let p ← call do
      let p ← arg .mut p b.len
      retag .mut p b.len
    from_raw p b.len
  pure ⟨r, b.len⟩

/-- `Box<str>::into_boxed_bytes` of the standard library. -/
def into_boxed_bytes (b : Slice) : BProg Slice := do
  let r ← call do
    let p ← arg .mut b.ptr b.len
    let p ← into_raw p b.len
    from_raw p b.len
  pure ⟨r, b.len⟩

/-- `Vec::from(Box<[u8]>)` of the standard library. -/
def vec_from (b : Slice) : BProg RVec := do
  let r ← call do
    let p ← arg .mut b.ptr b.len
    into_raw p b.len
  pure ⟨r.buf, b.len, b.len⟩

/-- `String::from(Box<str>)` of the standard library. -/
def string_from (b : Slice) : BProg RVec := do
  let b ← into_boxed_bytes b
  vec_from b

/-- The trait implementations for the type asked for: `Box<[u8]>`, `Box<str>`, `Vec<u8>`, `String` (base64-simd heap.rs:122-154, base32-simd heap.rs:118-150, hex-simd heap.rs:116-149). -/
def from_encode (ans : Slice) : EncodeTy → BProg Owned
  | .bytes => do let b ← into_boxed_bytes ans; pure (.bytes b)
  | .str => pure (.str ans)
  | .vec => do
    let b ← into_boxed_bytes ans
    let v ← vec_from b
    pure (.vec v)
  | .string => do let v ← string_from ans; pure (.string v)

/-- The trait implementations for the type asked for: `Box<[u8]>`, `Vec<u8>` (base64-simd heap.rs:105-119, base32-simd heap.rs:101-115, hex-simd heap.rs:98-113). -/
def from_decode (ans : Slice) : DecodeTy → BProg Owned
  | .bytes => pure (.bytes ans)
  | .vec => do let v ← vec_from ans; pure (.vec v)

/-! ### Vectors -/

/-- The end of the scope of a vector. -/
def drop_vec (v : RVec) : BProg Unit := if v.cap = 0 then pure () else dealloc ⟨v.buf, 0⟩ v.cap

/-- `Vec::reserve_exact` of the standard library, as `RVec.reserve_exact`; the old block is deallocated. -/
def reserve_exact (P : Plat) (extra : Nat) (v : RVec) (additional : Nat) : BProg RVec :=
  if additional ≤ v.cap - v.len then pure v
  else if v.len + additional + extra ≤ P.isizeMax then do
    let old ← prog (loadBytes ⟨v.buf, 0⟩ v.len)
    let p ← alloc (v.len + additional + extra)
    prog (storeBytes p old)
    drop_vec v
    pure ⟨p.buf, v.len, v.len + additional + extra⟩
  else prog .panic

/-- `Vec::with_capacity` of the standard library, as `vec_with_capacity`. -/
def with_capacity (P : Plat) (extra n : Nat) : BProg RVec :=
  if n + extra ≤ P.isizeMax then do
    let p ← alloc (n + extra)
    pure ⟨p.buf, 0, n + extra⟩
  else prog .panic

/-- `Vec::set_len` of the standard library. -/
def set_len (v : RVec) (n : Nat) : BProg RVec :=
  if n ≤ v.cap then do
    inited ⟨v.buf, 0⟩ n
    pure { v with len := n }
  else prog .ub

/-! ### base64-simd -/

namespace Base64

/-- `encode_to_boxed_str` (heap.rs:17-36). -/
def encode_to_boxed_str (P : Plat) (i : Option Isa) (config : Simd.Base64.Config) (data : Slice) : BProg Slice := call do
  let p ← arg .shared data.ptr data.len
  if data.len = 0 then prog box_empty
  else do
    let m ← prog (liftO (Simd.Base64.encoded_length_unchecked P data.len config))
    prog (assert (m ≤ P.usizeMax / 2))
    let buf ← alloc_uninit_bytes P m
    let src ← slice_parts p data.len
    let dst ← as_mut_ptr buf.ptr buf.len
    prog (Simd.Base64.encode_auto i src data.len dst config)
    let buf ← assume_init buf
    boxed_str buf

/-- `encode_append_vec` (heap.rs:39-59). -/
def encode_append_vec (P : Plat) (extra : Nat) (i : Option Isa) (config : Simd.Base64.Config) (src : Slice) (buf : RVec) : BProg RVec := call do
  let p ← arg .shared src.ptr src.len
  if src.len = 0 then pure buf
  else do
    let m ← prog (liftO (Simd.Base64.encoded_length_unchecked P src.len config))
    prog (assert (m ≤ P.usizeMax / 2))
    let buf ← reserve_exact P extra buf m
    let prev_len := buf.len
    let s ← slice_parts p src.len
    prog (padd ⟨buf.buf, 0⟩ prev_len)
    prog (Simd.Base64.encode_auto i s src.len ⟨buf.buf, prev_len⟩ config)
    let n ← prog (liftO (P.addU prev_len m))
    set_len buf n

/-- `decode_to_boxed_bytes` (heap.rs:62-81). -/
def decode_to_boxed_bytes (P : Plat) (i : Option Isa) (config : Simd.Base64.Config) (data : Slice) : BProg Slice := call do
  let p ← arg .shared data.ptr data.len
  if data.len = 0 then prog box_empty
  else do
    let (n, m) ← decoded_length ⟨p, data.len⟩ config
    let buf ← alloc_uninit_bytes P m
    let dst ← as_mut_ptr buf.ptr buf.len
    let src ← as_ptr p data.len
    orDrop (prog (Simd.Base64.decode_auto i src dst n config)) (drop_box buf)
    assume_init buf

/-- `decode_append_vec` (heap.rs:84-102). -/
def decode_append_vec (P : Plat) (extra : Nat) (i : Option Isa) (config : Simd.Base64.Config) (src : Slice) (buf : RVec) : BProg (RVec × Except Unit Unit) := call do
  let p ← arg .shared src.ptr src.len
  if src.len = 0 then pure (buf, .ok ())
  else do
    match ← attempt (decoded_length ⟨p, src.len⟩ config) with
    | none => pure (buf, .error ())
    | some (n, m) =>
      let buf ← reserve_exact P extra buf m
      let prev_len := buf.len
      prog (padd ⟨buf.buf, 0⟩ prev_len)
      let s ← as_ptr p src.len
      match ← attempt (prog (Simd.Base64.decode_auto i s ⟨buf.buf, prev_len⟩ n config)) with
      | none => pure (buf, .error ())
      | some _ =>
        let k ← prog (liftO (P.addU prev_len m))
        let buf ← set_len buf k
        pure (buf, .ok ())

/-- `forgiving_decode_to_vec` (forgiving.rs:74-101). -/
def forgiving_decode_to_vec (P : Plat) (extra : Nat) (fi di : Option Isa) (data : Slice) : BProg RVec := call do
  let p ← arg .shared data.ptr data.len
  let pos ← find_non_ascii_whitespace fi ⟨p, data.len⟩
  prog (assert (pos ≤ data.len))
  if pos = data.len then do
    let ans ← decode_to_boxed_bytes P di Simd.Base64.STANDARD_FORGIVING ⟨p, data.len⟩
    vec_from ans
  else do
    let vec ← with_capacity P extra data.len
    let src ← as_ptr p data.len
    let dst : Ptr := ⟨vec.buf, 0⟩
    prog (Simd.Base64.copy_nonoverlapping src dst pos)
    prog (padd src pos)
    prog (padd dst pos)
    let rem ← prog (Simd.Base64.remove_ascii_whitespace_fallback (src.add pos) (data.len - pos) (dst.add pos))
    prog (assert (rem ≤ data.len - pos))
    let d ← slice_mut dst (pos + rem)
    let ans ← orDrop (decode_inplace di Simd.Base64.STANDARD_FORGIVING ⟨d, pos + rem⟩) (drop_vec vec)
    set_len vec ans.len

end Base64

/-! ### base32-simd -/

namespace Base32

/-- `decode_to_boxed_bytes` (heap.rs:15-34). -/
def decode_to_boxed_bytes (P : Plat) (w : Bool) (i : Option Isa) (config : Simd.Base32.Config) (data : Slice) : BProg Slice := call do
  let p ← arg .shared data.ptr data.len
  if data.len = 0 then prog box_empty
  else do
    let (n, m) ← decoded_length ⟨p, data.len⟩ config.padding
    let buf ← alloc_uninit_bytes P m
    let src ← as_ptr p data.len
    let dst ← as_mut_ptr buf.ptr buf.len
    orDrop (prog (Simd.Base32.decode_auto w i src n dst config.kind)) (drop_box buf)
    assume_init buf

/-- `decode_append_vec` (heap.rs:37-55). -/
def decode_append_vec (P : Plat) (w : Bool) (extra : Nat) (i : Option Isa) (config : Simd.Base32.Config) (src : Slice) (buf : RVec) : BProg (RVec × Except Unit Unit) := call do
  let p ← arg .shared src.ptr src.len
  if src.len = 0 then pure (buf, .ok ())
  else do
    match ← attempt (decoded_length ⟨p, src.len⟩ config.padding) with
    | none => pure (buf, .error ())
    | some (n, m) =>
      let buf ← reserve_exact P extra buf m
      let prev_len := buf.len
      prog (padd ⟨buf.buf, 0⟩ prev_len)
      let s ← as_ptr p src.len
      match ← attempt (prog (Simd.Base32.decode_auto w i s n ⟨buf.buf, prev_len⟩ config.kind)) with
      | none => pure (buf, .error ())
      | some _ =>
        let k ← prog (liftO (P.addU prev_len m))
        let buf ← set_len buf k
        pure (buf, .ok ())

/-- `encode_to_boxed_str` (heap.rs:58-77). -/
def encode_to_boxed_str (P : Plat) (w : Bool) (i : Option Isa) (config : Simd.Base32.Config) (data : Slice) : BProg Slice := call do
  let p ← arg .shared data.ptr data.len
  if data.len = 0 then prog box_empty
  else do
    let m ← prog (liftO (Simd.Base32.encoded_length_unchecked P data.len config.padding))
    prog (assert (m ≤ P.usizeMax / 2))
    let buf ← alloc_uninit_bytes P m
    let src ← slice_parts p data.len
    let dst ← as_mut_ptr buf.ptr buf.len
    prog (Simd.Base32.encode_auto w i src data.len dst config.kind config.padding)
    let buf ← assume_init buf
    boxed_str buf

/-- `encode_append_vec` (heap.rs:80-98). -/
def encode_append_vec (P : Plat) (w : Bool) (extra : Nat) (i : Option Isa) (config : Simd.Base32.Config) (src : Slice) (buf : RVec) : BProg RVec := call do
  let p ← arg .shared src.ptr src.len
  if src.len = 0 then pure buf
  else do
    let m ← prog (liftO (Simd.Base32.encoded_length_unchecked P src.len config.padding))
    prog (assert (m ≤ P.usizeMax / 2))
    let buf ← reserve_exact P extra buf m
    let prev_len := buf.len
    let s ← slice_parts p src.len
    prog (padd ⟨buf.buf, 0⟩ prev_len)
    prog (Simd.Base32.encode_auto w i s src.len ⟨buf.buf, prev_len⟩ config.kind config.padding)
    let n ← prog (liftO (P.addU prev_len m))
    set_len buf n

end Base32

/-! ### hex-simd -/

namespace Hex

/-- `decode_to_boxed_bytes` (heap.rs:13-31). -/
def decode_to_boxed_bytes (P : Plat) (i : Option Isa) (src : Slice) : BProg Slice := call do
  let p ← arg .shared src.ptr src.len
  if src.len = 0 then prog box_empty
  else do
    prog (ensure (src.len % 2 == 0))
    let buf ← alloc_uninit_bytes P (src.len / 2)
    let s ← slice_parts p src.len
    let dst ← as_mut_ptr buf.ptr buf.len
    orDrop (prog (Simd.Hex.decode_auto i s src.len dst)) (drop_box buf)
    assume_init buf

/-- `decode_append_vec` (heap.rs:34-53). -/
def decode_append_vec (P : Plat) (extra : Nat) (i : Option Isa) (src : Slice) (buf : RVec) : BProg (RVec × Except Unit Unit) := call do
  let p ← arg .shared src.ptr src.len
  if src.len = 0 then pure (buf, .ok ())
  else if src.len % 2 = 0 then do
    let m := src.len / 2
    let buf ← reserve_exact P extra buf m
    let prev_len := buf.len
    let s ← slice_parts p src.len
    prog (padd ⟨buf.buf, 0⟩ prev_len)
    match ← attempt (prog (Simd.Hex.decode_auto i s src.len ⟨buf.buf, prev_len⟩)) with
    | none => pure (buf, .error ())
    | some _ =>
      let k ← prog (liftO (P.addU prev_len m))
      let buf ← set_len buf k
      pure (buf, .ok ())
  else pure (buf, .error ())

/-- `encode_to_boxed_str` (heap.rs:56-75). -/
def encode_to_boxed_str (P : Plat) (i : Option Isa) (src : Slice) (case : AsciiCase) : BProg Slice := call do
  let p ← arg .shared src.ptr src.len
  if src.len = 0 then prog box_empty
  else do
    let m ← prog (liftO (P.mulU src.len 2))
    prog (assert (m ≤ P.usizeMax / 2))
    let buf ← alloc_uninit_bytes P m
    let s ← slice_parts p src.len
    let dst ← as_mut_ptr buf.ptr buf.len
    prog (Simd.Hex.encode_auto i s src.len dst case)
    let buf ← assume_init buf
    boxed_str buf

/-- `encode_append_vec` (heap.rs:78-96). -/
def encode_append_vec (P : Plat) (extra : Nat) (i : Option Isa) (src : Slice) (buf : RVec) (case : AsciiCase) : BProg RVec := call do
  let p ← arg .shared src.ptr src.len
  if src.len = 0 then pure buf
  else do
    let m ← prog (liftO (P.mulU src.len 2))
    prog (assert (m ≤ P.usizeMax / 2))
    let buf ← reserve_exact P extra buf m
    let prev_len := buf.len
    let s ← slice_parts p src.len
    prog (padd ⟨buf.buf, 0⟩ prev_len)
    prog (Simd.Hex.encode_auto i s src.len ⟨buf.buf, prev_len⟩ case)
    let n ← prog (liftO (P.addU prev_len m))
    set_len buf n

end Hex

end Simd.Tree

namespace Simd.HeapCall
open Tree

/-- The function called, with borrow trees; the pointers of the call are tagged. -/
def tree {α : Type} (P : Plat) : HeapCall α → BProg α
  | base64Encode i config data ty => do from_encode (← Tree.Base64.encode_to_boxed_str P i config data) ty
  | base64Decode i config data ty => do from_decode (← Tree.Base64.decode_to_boxed_bytes P i config data) ty
  | base64EncodeAppend extra i config src dst => Tree.Base64.encode_append_vec P extra i config src dst
  | base64DecodeAppend extra i config src dst => Tree.Base64.decode_append_vec P extra i config src dst
  | forgiving extra fi di data => Tree.Base64.forgiving_decode_to_vec P extra fi di data
  | base32Encode w i config data ty => do from_encode (← Tree.Base32.encode_to_boxed_str P w i config data) ty
  | base32Decode w i config data ty => do from_decode (← Tree.Base32.decode_to_boxed_bytes P w i config data) ty
  | base32EncodeAppend w extra i config src dst => Tree.Base32.encode_append_vec P w extra i config src dst
  | base32DecodeAppend w extra i config src dst => Tree.Base32.decode_append_vec P w extra i config src dst
  | hexEncode i case data ty => do from_encode (← Tree.Hex.encode_to_boxed_str P i data case) ty
  | hexDecode i data ty => do from_decode (← Tree.Hex.decode_to_boxed_bytes P i data) ty
  | hexEncodeAppend extra i case src dst => Tree.Hex.encode_append_vec P extra i src dst case
  | hexDecodeAppend extra i src dst => Tree.Hex.decode_append_vec P extra i src dst

end Simd.HeapCall
