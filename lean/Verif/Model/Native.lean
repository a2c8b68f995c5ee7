import Verif.Model.Dispatch
/-
Running a closure with the best instruction set of the CPU (crates/vsimd/src/native.rs) and `isa::detect` (crates/vsimd/src/isa.rs).
-/
namespace Simd.Native
open Dispatch

/-- `native::Arch` (native.rs:5-22); the variants that do not exist on an architecture are kept and never match in `exec`. -/
inductive NArch where
  | avx2 | sse41 | sse2 | neon | simd128 | fallback
deriving DecidableEq, Repr

/-- `any(all(feature = "unstable", target_arch = "arm"), target_arch = "aarch64")`. -/
def neonCfg (b : Build) : Bool := (b.unstable && b.arch == .arm) || b.arch == .aarch64

/-- `Native::detect` (native.rs:27-55). -/
def detect (b : Build) (cpu : Cpu) : NArch :=
  if b.arch.isX86 && is_feature_detected b cpu .avx2 then .avx2
  else if b.arch.isX86 && is_feature_detected b cpu .sse41 then .sse41
  else if b.arch.isX86 && is_feature_detected b cpu .sse2 then .sse2
  else if neonCfg b && is_feature_detected b cpu .neon then .neon
  else if b.arch == .wasm32 && is_feature_detected b cpu .simd128 then .simd128
  else .fallback

/-- `generic_dispatch!` (native.rs:97-110): call the closure in a function compiled with the target feature `t`. The closure is a
state transformer that can observe the target feature it is compiled with. -/
def generic_dispatch {σ O : Type} (t : Target) (f : Option Target → σ → O × σ) (s : σ) : O × σ := f (some t) s

/-- `Native::exec` (native.rs:58-94); `none`: the variant does not exist on this architecture. -/
def exec {σ O : Type} (b : Build) (a : NArch) (f : Option Target → σ → O × σ) (s : σ) : Option (O × σ) :=
  if b.arch.isX86 then
    match a with
    | .avx2 => some (generic_dispatch .avx2 f s)
    | .sse41 => some (generic_dispatch .sse41 f s)
    | .sse2 => some (generic_dispatch .sse2 f s)
    | .fallback => some (f none s)
    | _ => none
  else if neonCfg b then
    match a with
    | .neon => some (generic_dispatch .neon f s)
    | .fallback => some (f none s)
    | _ => none
  else if b.arch == .wasm32 then
    match a with
    | .simd128 => some (generic_dispatch .simd128 f s)
    | .fallback => some (f none s)
    | _ => none
  else some (f none s)

/-- `isa::detect::<S>` (isa.rs:12-16) for the instruction-set type of target `t`: `S::is_enabled().then(|| S::new())`. Of the type
only its name and the architecture it is compiled for matter; `none` in `compiled`: `S::ARCH` is false. -/
def isa_detect (b : Build) (cpu : Cpu) (t : Target) : Option Target := if is_enabled b cpu t then some t else none

end Simd.Native
