import Verif.Model.Calls
/-
Clients that make several calls of the safe functions on slices, each depending on what the earlier ones returned.
-/
namespace Simd

/-- What a thread of a client does: it reads and writes bytes of its own, calls the functions of the crates (base64-simd lib.rs:222-290, forgiving.rs:21-61, base32-simd lib.rs:173-242,
hex-simd lib.rs:145-200, uuid-simd lib.rs:81-170, unicode-simd lib.rs:44-110) and goes on with what they return; `none` stands for an `Err`, which in Rust is a value like any other.
The clients are not part of the repository; the functions that allocate are not among the calls here. -/
inductive Script (α : Type) : Type 1 where
  | done (a : α)
  | read (p : Ptr) (n : Nat) (k : List Byte → Script α)
  | write (p : Ptr) (bs : List Byte) (k : Script α)
  | call {β : Type} (c : Call β) (k : Option β → Script α)

/-- The thread as a program: a panic in a call ends it. -/
def Script.prog {α : Type} (P : Plat) : Script α → Prog α
  | done a => pure a
  | read p n k => loadBytes p n >>= fun bs => (k bs).prog P
  | write p bs k => storeBytes p bs >>= fun _ => k.prog P
  | call c k => (c.prog P).attempt >>= fun r => (k r).prog P

end Simd
