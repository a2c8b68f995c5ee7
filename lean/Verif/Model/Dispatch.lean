import Verif.Model.Isa
/-
Function multiversioning: the `dispatch!` macro (crates/vsimd/src/macros.rs:55-393), feature detection
(crates/vsimd/src/isa.rs) and the `dispatch!` invocations of the crates (crates/*/src/multiversion.rs).
-/
namespace Simd.Dispatch

/-- `target_arch`. -/
inductive Arch where
  | x86 | x86_64 | arm | aarch64 | wasm32 | other
deriving DecidableEq, Repr

/-- The string literals in `targets = {…}`; also the CPU features of the same names. -/
inductive Target where
  | avx2 | sse41 | ssse3 | sse2 | neon | simd128
deriving DecidableEq, Repr

/-- Compile-time configuration. `detect` and `unstable` are the features of the crate that invokes `dispatch!`; its Cargo.toml
forwards both to vsimd. `flags t` is `cfg!(target_feature = "t")`. -/
structure Build where
  arch : Arch
  detect : Bool
  unstable : Bool
  flags : Target → Bool

/-- The features of the CPU (and OS) on which the program runs, as `std::is_*_feature_detected!` reports them. -/
abbrev Cpu := Target → Bool

def Arch.isX86 : Arch → Bool
  | .x86 | .x86_64 => true
  | _ => false

/-- `@compile` (macros.rs:299-392): the function generated for a target and its instruction-set type; `none`: none is generated. -/
def compiled (b : Build) : Target → Option Isa
  | .avx2 => if b.arch.isX86 then some .avx2 else none
  | .sse41 => if b.arch.isX86 then some .sse41 else none
  | .ssse3 => if b.arch.isX86 then some .ssse3 else none
  | .sse2 => if b.arch.isX86 then some .sse2 else none
  | .neon =>
    if b.unstable && b.arch == .arm then some .neon32
    else if b.arch == .aarch64 then some .neon64
    else none
  | .simd128 => if b.arch == .wasm32 then some .wasm128 else none

/-- `@resolve_static` (macros.rs:152-210): the `return` statement generated for a target. -/
def resolve_static (b : Build) : Target → Option Isa
  | .avx2 => if b.arch.isX86 && b.flags .avx2 then some .avx2 else none
  | .sse41 => if b.arch.isX86 && b.flags .sse41 then some .sse41 else none
  | .ssse3 => if b.arch.isX86 && b.flags .ssse3 then some .ssse3 else none
  | .sse2 => if b.arch.isX86 && b.flags .sse2 then some .sse2 else none
  | .neon =>
    if b.unstable && b.arch == .arm && b.flags .neon then some .neon32
    else if b.arch == .aarch64 && b.flags .neon then some .neon64
    else none
  | .simd128 => if b.arch == .wasm32 && b.flags .simd128 then some .wasm128 else none

/-- `is_feature_detected!` (isa.rs:96-133). -/
def is_feature_detected (b : Build) (cpu : Cpu) (t : Target) : Bool :=
  if b.flags t then true
  else if b.detect then
    match b.arch with
    | .x86 | .x86_64 | .arm | .aarch64 => cpu t
    | _ => false
  else false

/-- `InstructionSet::is_enabled` (isa.rs:136-147, 162-164, 184-186, 206-208, 228-230, 251-272, 291-301). -/
def is_enabled (b : Build) (cpu : Cpu) : Target → Bool
  | .neon =>
    match b.arch with
    | .arm => if b.unstable then is_feature_detected b cpu .neon else false
    | .aarch64 => is_feature_detected b cpu .neon
    | _ => false
  | .simd128 => if b.arch == .wasm32 then is_feature_detected b cpu .simd128 else false
  | t => if b.arch.isX86 then is_feature_detected b cpu t else false

/-- `@resolve_dynamic` (macros.rs:227-267): return the compiled function if the instruction set is enabled. The guard
`cfg` is the one of `@compile`. -/
def resolve_dynamic (b : Build) (cpu : Cpu) (t : Target) : Option Isa :=
  match compiled b t with
  | some s => if is_enabled b cpu t then some s else none
  | none => none

/-- The parameters of a `dispatch!` invocation. -/
structure Params where
  targets : List Target
  fastest : List Target

/-- `@iter_resolve_static` (macros.rs:135-150): the first `return` statement that is compiled in. -/
def iter_resolve_static (b : Build) (ts : List Target) : Option Isa := ts.findSome? (resolve_static b)

/-- `auto` without run-time detection (macros.rs:88-97): `none` is the fallback. -/
def auto_direct (b : Build) (d : Params) : Option Isa := iter_resolve_static b d.targets

/-- The condition of `auto_direct`: `not(all(feature = "detect", not(target_arch = "wasm32")))` (macros.rs:88). -/
def direct (b : Build) : Bool := !(b.detect && !(b.arch == .wasm32))

/-- `resolve` (macros.rs:105-110, 212-225): the implementation to be stored in `IFUNC`. -/
def resolve (b : Build) (cpu : Cpu) (d : Params) : Option Isa := d.targets.findSome? (resolve_dynamic b cpu)

/-- What the function pointer in `IFUNC` can be: `init_ifunc` or an implementation. -/
inductive Fn where
  | init_ifunc
  | impl (i : Option Isa)
deriving DecidableEq, Repr

/-- Where a thread is in a call of `auto` (macros.rs:112-130). -/
inductive Thread where
  /-- not in a call -/
  | idle
  /-- at the beginning of `auto` -/
  | auto
  /-- about to call the function pointer -/
  | call (f : Fn)
  /-- in `init_ifunc`, having called `resolve`, about to store -/
  | store (f : Fn)
  /-- executing an implementation -/
  | run (i : Option Isa)
deriving DecidableEq, Repr

/-- All values ever written to `IFUNC`, latest first, and the threads. -/
structure State where
  ifunc : List Fn
  thread : Nat → Thread

/-- Program start: `IFUNC` holds `init_ifunc` (macros.rs:103). -/
def State.init : State := ⟨[.init_ifunc], fun _ => .idle⟩

def State.set (s : State) (t : Nat) (x : Thread) : State := ⟨s.ifunc, fun u => if u = t then x else s.thread u⟩

/-- One step of thread `t`. A relaxed load may return any value ever stored (this allows more behaviours than the
memory model, in which a thread never reads older values than it has read before). -/
inductive Step (b : Build) (cpu : Cpu) (d : Params) (t : Nat) : State → State → Prop where
  /-- the program calls `auto` -/
  | enter {s} (h : s.thread t = .idle) : Step b cpu d t s (s.set t .auto)
  /-- the fastest implementation is known at compile time (macros.rs:122-126) -/
  | static {s i} (h : s.thread t = .auto) (hi : iter_resolve_static b d.fastest = some i) : Step b cpu d t s (s.set t (.run (some i)))
  /-- `IFUNC.load(Relaxed)` (macros.rs:128) -/
  | load {s f} (h : s.thread t = .auto) (hi : iter_resolve_static b d.fastest = none) (hf : f ∈ s.ifunc) : Step b cpu d t s (s.set t (.call f))
  /-- the pointer is `init_ifunc`: `let f = resolve()` (macros.rs:113-114) -/
  | init {s} (h : s.thread t = .call .init_ifunc) : Step b cpu d t s (s.set t (.store (.impl (resolve b cpu d))))
  /-- `IFUNC.store(f as *mut (), Relaxed)`, then call `f` (macros.rs:115-116) -/
  | store {s f} (h : s.thread t = .store f) : Step b cpu d t s ({ s with ifunc := f :: s.ifunc }.set t (.call f))
  /-- the pointer is an implementation: run it -/
  | run {s i} (h : s.thread t = .call (.impl i)) : Step b cpu d t s (s.set t (.run i))
  /-- the implementation returns, and so does `auto` -/
  | ret {s i} (h : s.thread t = .run i) : Step b cpu d t s (s.set t .idle)

/-- States reachable by any number of threads making any number of calls in any interleaving. -/
inductive Reachable (b : Build) (cpu : Cpu) (d : Params) : State → Prop where
  | init : Reachable b cpu d State.init
  | step {s s'} (t : Nat) : Reachable b cpu d s → Step b cpu d t s s' → Reachable b cpu d s'

/-- Calling the dispatched function may execute implementation `i`. -/
def Runs (b : Build) (cpu : Cpu) (d : Params) (i : Option Isa) : Prop :=
  if direct b then i = auto_direct b d else ∃ s t, Reachable b cpu d s ∧ s.thread t = .run i

/-! ### The `dispatch!` invocations -/

def fastest : List Target := [.avx2, .neon, .simd128]

/-- base64-simd/src/multiversion.rs:3-10, 12-19, 21-28. -/
def base64_encode : Params := ⟨[.avx2, .ssse3, .neon, .simd128], fastest⟩
def base64_decode : Params := ⟨[.avx2, .ssse3, .neon, .simd128], fastest⟩
def base64_check : Params := ⟨[.avx2, .ssse3, .neon, .simd128], fastest⟩
/-- base64-simd/src/multiversion.rs:30-37. -/
def base64_find : Params := ⟨[.avx2, .sse2, .neon, .simd128], fastest⟩
/-- base32-simd/src/multiversion.rs:3-10. -/
def base32_check : Params := ⟨[.avx2, .ssse3, .neon, .simd128], fastest⟩
/-- base32-simd/src/multiversion.rs:12-19, 21-28. -/
def base32_decode : Params := ⟨[.avx2, .sse41, .neon, .simd128], fastest⟩
def base32_encode : Params := ⟨[.avx2, .sse41, .neon, .simd128], fastest⟩
/-- hex-simd/src/multiversion.rs:5-12. -/
def hex_check : Params := ⟨[.avx2, .sse2, .neon, .simd128], fastest⟩
/-- hex-simd/src/multiversion.rs:14-21, 23-30. -/
def hex_encode : Params := ⟨[.avx2, .ssse3, .sse2, .neon, .simd128], fastest⟩
def hex_decode : Params := ⟨[.avx2, .ssse3, .sse2, .neon, .simd128], fastest⟩
/-- uuid-simd/src/multiversion.rs:5-12, 23-30. -/
def uuid_parse_simple : Params := ⟨[.avx2, .ssse3, .sse2, .neon, .simd128], fastest⟩
def uuid_format_simple : Params := ⟨[.avx2, .ssse3, .sse2, .neon, .simd128], fastest⟩
/-- uuid-simd/src/multiversion.rs:14-21, 32-39. -/
def uuid_parse_hyphenated : Params := ⟨[.avx2, .sse41, .neon, .simd128], fastest⟩
def uuid_format_hyphenated : Params := ⟨[.avx2, .sse41, .neon, .simd128], fastest⟩
/-- unicode-simd/src/multiversion.rs:3-10. -/
def unicode_is_ascii : Params := ⟨[.avx2, .sse2, .neon, .simd128], fastest⟩
/-- unicode-simd/src/multiversion.rs:12-19. -/
def unicode_is_utf32le : Params := ⟨[.avx2, .sse41, .neon, .simd128], fastest⟩
/-- unicode-simd/src/multiversion.rs:21-28, 30-37. -/
def unicode_utf32_swap : Params := ⟨[.avx2, .ssse3, .neon, .simd128], fastest⟩
def unicode_utf16_swap : Params := ⟨[.avx2, .ssse3, .neon, .simd128], fastest⟩

/-- All invocations. -/
def all : List Params := [base64_encode, base64_decode, base64_check, base64_find, base32_check, base32_decode, base32_encode,
  hex_check, hex_encode, hex_decode, uuid_parse_simple, uuid_format_simple, uuid_parse_hyphenated, uuid_format_hyphenated,
  unicode_is_ascii, unicode_is_utf32le, unicode_utf32_swap, unicode_utf16_swap]

end Simd.Dispatch
