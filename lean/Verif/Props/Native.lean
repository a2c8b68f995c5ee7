import Verif.Model.Native
import Verif.Props.Dispatch
/-
C57: `Native::detect().exec(f)` runs `f` once, under the best instruction set that is safe to use.
-/
namespace Simd
namespace Native
open Dispatch

/-- The target features of an architecture, best first. (NEON on 32-bit ARM only with the `unstable` feature.) -/
def preference (arch : Arch) (unstable : Bool) : List Target :=
  match arch with
  | .x86 | .x86_64 => [.avx2, .sse41, .sse2]
  | .arm => if unstable then [.neon] else []
  | .aarch64 => [.neon]
  | .wasm32 => [.simd128]
  | .other => []

/-- A feature may be used if the program was compiled for it, or detection is compiled in and the CPU has it. There is no run-time
detection on wasm32. -/
def Usable (b : Build) (cpu : Cpu) (t : Target) : Prop := b.flags t = true ∨ (b.detect = true ∧ b.arch ≠ .wasm32 ∧ cpu t = true)

instance (b : Build) (cpu : Cpu) (t : Target) : Decidable (Usable b cpu t) := by unfold Usable; infer_instance

theorem detected_iff (b : Build) (cpu : Cpu) (t : Target) (ho : b.arch ≠ .other) : is_feature_detected b cpu t = decide (Usable b cpu t) := by
  obtain ⟨arch, det, unst, flags⟩ := b
  rw [Bool.eq_iff_iff, decide_eq_true_iff]
  unfold is_feature_detected Usable
  cases hf : flags t <;> cases det <;> cases arch <;> simp_all

/-- C57: the closure is called exactly once, on the state of the caller, and its result is returned; it runs under the best usable
target feature of the architecture, or under none if none is usable. `exec` never meets a variant of another architecture. -/
theorem C57_exec {σ O : Type} (b : Build) (cpu : Cpu) (f : Option Target → σ → O × σ) (s : σ) :
    exec b (detect b cpu) f s = some (f ((preference b.arch b.unstable).find? fun t => decide (Usable b cpu t)) s) := by
  by_cases ho : b.arch = .other
  · obtain ⟨arch, det, unst, flags⟩ := b
    cases ho; cases unst <;> rfl
  · have hd := fun t => detected_iff b cpu t ho
    unfold detect
    simp only [hd]
    generalize hu : (fun t => decide (Usable b cpu t)) = u
    simp only [show ∀ t, decide (Usable b cpu t) = u t from fun t => congrFun hu t]
    obtain ⟨arch, det, unst, flags⟩ := b
    cases arch <;> cases unst <;> simp only [preference, if_true, if_false, Bool.false_eq_true, List.find?, Arch.isX86, neonCfg] <;>
      cases u .avx2 <;> cases u .sse41 <;> cases u .sse2 <;> cases u .neon <;> cases u .simd128 <;> rfl

/-- C57: no illegal instruction: the target feature under which the closure runs is one the CPU has, and belongs to the architecture. -/
theorem C57_supported (b : Build) (cpu : Cpu) (hv : Valid b cpu) (t : Target)
    (h : (preference b.arch b.unstable).find? (fun t => decide (Usable b cpu t)) = some t) : cpu t = true ∧ ∃ s, compiled b t = some s := by
  have hu := List.find?_some h
  have hm := List.mem_of_find?_eq_some h
  refine ⟨?_, ?_⟩
  · rcases of_decide_eq_true hu with hu | hu
    · exact hv t hu
    · exact hu.2.2
  · revert hm
    unfold preference compiled
    cases b.arch <;> cases b.unstable <;> simp (config := { decide := true }) <;> intro hm <;> (try rcases hm with rfl | rfl | rfl) <;> simp

/-- C57: `isa::detect` returns an instruction set only if the code compiled for it can be executed. -/
theorem C57_isa_detect (b : Build) (cpu : Cpu) (hc : Coherent cpu) (hv : Valid b cpu) (t u : Target) (h : isa_detect b cpu t = some u) :
    u = t ∧ ∃ s, compiled b t = some s ∧ Executable b.arch cpu s := by
  unfold isa_detect at h
  split at h
  · rename_i he
    refine ⟨(Option.some.inj h).symm, ?_⟩
    have key : (∃ s, compiled b t = some s) ∧ cpu t = true := by
      have hv := hv t
      obtain ⟨arch, det, unst, flags⟩ := b
      cases t <;> cases arch <;> cases det <;> cases unst <;>
        simp [compiled, is_enabled, is_feature_detected, Arch.isX86] at he hv ⊢ <;> simp_all <;> grind
    obtain ⟨⟨s, hs⟩, ht⟩ := key
    exact ⟨s, hs, compiled_executable hc hs ht⟩
  · cases h

/-- Run-time detection on an x86-64 CPU with SSE4.1 but no AVX2, program compiled for SSE2. -/
example : exec (σ := Nat) ⟨.x86_64, true, false, (· == .sse2)⟩ (detect ⟨.x86_64, true, false, (· == .sse2)⟩ (· != .avx2)) (fun t n => (t, n + 1)) 7 = some (some .sse41, 8) ∧
    Valid ⟨.x86_64, true, false, (· == .sse2)⟩ (· != .avx2) ∧ Coherent (· != .avx2) := by
  refine ⟨rfl, fun t => by cases t <;> decide, by decide, by decide, by decide⟩

end Native
end Simd
