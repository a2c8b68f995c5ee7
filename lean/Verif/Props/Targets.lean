import Verif.Props.Dispatch
/-
Which implementations the dispatched functions can execute at all: property C86.
-/
namespace Simd
namespace Dispatch

/-- For every dispatched function the vectorised implementations that some machine executes, as read off the API documentation and the Cargo features:
x86 levels, NEON on 32-bit ARM (feature `unstable`) and on AArch64, and WebAssembly SIMD. -/
def implementations : List (Params × List Isa) :=
  [(base64_encode, [.avx2, .ssse3, .neon32, .neon64, .wasm128]),
   (base64_decode, [.avx2, .ssse3, .neon32, .neon64, .wasm128]),
   (base64_check, [.avx2, .ssse3, .neon32, .neon64, .wasm128]),
   (base64_find, [.avx2, .sse2, .neon32, .neon64, .wasm128]),
   (base32_check, [.avx2, .ssse3, .neon32, .neon64, .wasm128]),
   (base32_decode, [.avx2, .sse41, .neon32, .neon64, .wasm128]),
   (base32_encode, [.avx2, .sse41, .neon32, .neon64, .wasm128]),
   (hex_check, [.avx2, .sse2, .neon32, .neon64, .wasm128]),
   (hex_encode, [.avx2, .ssse3, .sse2, .neon32, .neon64, .wasm128]),
   (hex_decode, [.avx2, .ssse3, .sse2, .neon32, .neon64, .wasm128]),
   (uuid_parse_simple, [.avx2, .ssse3, .sse2, .neon32, .neon64, .wasm128]),
   (uuid_format_simple, [.avx2, .ssse3, .sse2, .neon32, .neon64, .wasm128]),
   (uuid_parse_hyphenated, [.avx2, .sse41, .neon32, .neon64, .wasm128]),
   (uuid_format_hyphenated, [.avx2, .sse41, .neon32, .neon64, .wasm128]),
   (unicode_is_ascii, [.avx2, .sse2, .neon32, .neon64, .wasm128]),
   (unicode_is_utf32le, [.avx2, .sse41, .neon32, .neon64, .wasm128]),
   (unicode_utf32_swap, [.avx2, .ssse3, .neon32, .neon64, .wasm128]),
   (unicode_utf16_swap, [.avx2, .ssse3, .neon32, .neon64, .wasm128])]

/-- A machine for an implementation: an architecture, whether the crate is built with `unstable`, and the features of the CPU. -/
def machine : Isa → Build × Cpu
  | .sse2 => (⟨.x86, true, false, fun _ => false⟩, fun t => t == .sse2)
  | .ssse3 => (⟨.x86, true, false, fun _ => false⟩, fun t => t == .sse2 || t == .ssse3)
  | .sse41 => (⟨.x86_64, true, false, fun t => t == .sse2⟩, fun t => t == .sse2 || t == .ssse3 || t == .sse41)
  | .avx2 => (⟨.x86_64, true, false, fun t => t == .sse2⟩, fun t => t == .sse2 || t == .ssse3 || t == .sse41 || t == .avx2)
  | .neon32 => (⟨.arm, true, true, fun _ => false⟩, fun t => t == .neon)
  | .neon64 => (⟨.aarch64, true, false, fun _ => false⟩, fun t => t == .neon)
  | .wasm128 => (⟨.wasm32, true, false, fun t => t == .simd128⟩, fun t => t == .simd128)

/-- The instruction-set types that the functions generated for a target use. -/
def isas : Target → List Isa
  | .avx2 => [.avx2] | .sse41 => [.sse41] | .ssse3 => [.ssse3] | .sse2 => [.sse2] | .neon => [.neon32, .neon64] | .simd128 => [.wasm128]

theorem compiled_isas {b : Build} {t : Target} {s : Isa} (h : compiled b t = some s) : s ∈ isas t := by
  obtain ⟨arch, detect, unstable, flags⟩ := b
  cases t <;> cases arch <;> cases unstable <;> simp [compiled, Arch.isX86] at h <;> subst h <;> decide

theorem machine_ok (s : Isa) : Coherent (machine s).2 ∧ Valid (machine s).1 (machine s).2 := by
  cases s <;> (refine ⟨by unfold Coherent machine; decide, ?_⟩; intro t; cases t <;> decide)

theorem runs_of_chosen {b : Build} {cpu : Cpu} {d : Params} (hs : iter_resolve_static b d.fastest = none ∨ direct b = true) : Runs b cpu d (chosen b cpu d) := by
  by_cases hd : direct b = true
  · unfold Runs chosen; rw [if_pos hd, if_pos hd]
  · have hs : iter_resolve_static b d.fastest = none := hs.resolve_right hd
    have := runs_first b cpu d (by simpa using hd) hs
    unfold chosen; rw [if_neg hd, hs]; exact this

/-- C86: the implementations which some machine executes (whatever the build, the CPU and the calls made before) are exactly the fallback and the listed ones. -/
theorem C86_implementations (p : Params × List Isa) (hp : p ∈ implementations) (i : Option Isa) :
    (∃ b cpu, Coherent cpu ∧ Valid b cpu ∧ Runs b cpu p.1 i) ↔ i = none ∨ ∃ s ∈ p.2, i = some s := by
  constructor
  · rintro ⟨b, cpu, -, -, h⟩
    cases i with
    | none => exact .inl rfl
    | some s =>
      refine .inr ⟨s, ?_, rfl⟩
      obtain ⟨t, ht, hc⟩ := h.target
      have : ∀ p ∈ implementations, ∀ t ∈ p.1.targets ++ p.1.fastest, ∀ s ∈ isas t, s ∈ p.2 := by decide
      exact this p hp t ht s (compiled_isas hc)
  · rintro (rfl | ⟨s, hs, rfl⟩)
    · refine ⟨⟨.other, true, false, fun _ => false⟩, fun _ => false, by unfold Coherent; decide, by intro t h; exact h, ?_⟩
      have := runs_first ⟨.other, true, false, fun _ => false⟩ (fun _ => false) p.1 (by decide)
      have h1 : ∀ p ∈ implementations, iter_resolve_static ⟨.other, true, false, fun _ => false⟩ p.1.fastest = none ∧
          resolve ⟨.other, true, false, fun _ => false⟩ (fun _ => false) p.1 = none := by decide
      have h2 := this (h1 p hp).1
      rwa [(h1 p hp).2] at h2
    · refine ⟨(machine s).1, (machine s).2, (machine_ok s).1, (machine_ok s).2, ?_⟩
      have h1 : ∀ p ∈ implementations, ∀ s ∈ p.2, (iter_resolve_static (machine s).1 p.1.fastest = none ∨ direct (machine s).1 = true) ∧
          chosen (machine s).1 (machine s).2 p.1 = some s := by decide
      obtain ⟨h2, h3⟩ := h1 p hp s hs
      rw [← h3]
      exact runs_of_chosen h2

/-- C86: every dispatched function is in the table. -/
theorem C86_complete (d : Params) : d ∈ all ↔ ∃ l, (d, l) ∈ implementations := by
  have h : implementations.map (·.1) = all := rfl
  rw [← h, List.mem_map]
  exact ⟨fun ⟨p, hp, e⟩ => ⟨p.2, e ▸ hp⟩, fun ⟨l, hl⟩ => ⟨_, hl, rfl⟩⟩

/-- Some machine executes the vectorised implementation `s` of `d`. -/
def Used (d : Params) (s : Isa) : Prop := ∃ b cpu, Coherent cpu ∧ Valid b cpu ∧ Runs b cpu d (some s)

theorem used_iff {d : Params} {l : List Isa} (h : (d, l) ∈ implementations) (s : Isa) : Used d s ↔ s ∈ l := by
  have := C86_implementations (d, l) h (some s)
  unfold Used
  rw [this]
  simp

/-- C86: the lists by which the models of the crates name the implementations are exactly the implementations in use. -/
theorem C86_lists (s : Isa) :
    (Used base64_encode s ↔ s ∈ Base64.targets) ∧ (Used base64_decode s ↔ s ∈ Base64.targets) ∧ (Used base64_check s ↔ s ∈ Base64.targets) ∧
    (Used base32_encode s ↔ s ∈ Base32.targets) ∧ (Used base32_decode s ↔ s ∈ Base32.targets) ∧ (Used base32_check s ↔ s ∈ Base32.check_targets) ∧
    (Used uuid_parse_hyphenated s ↔ s ∈ Uuid.hyphenated_targets) ∧ (Used uuid_format_hyphenated s ↔ s ∈ Uuid.hyphenated_targets) ∧
    (Used unicode_is_utf32le s ↔ s ∈ Unicode.is_utf32le_targets) ∧
    (Used unicode_utf32_swap s ↔ s ∈ Unicode.swap_targets) ∧ (Used unicode_utf16_swap s ↔ s ∈ Unicode.swap_targets) := by
  refine ⟨?_, ?_, ?_, ?_, ?_, ?_, ?_, ?_, ?_, ?_, ?_⟩ <;> exact used_iff (by unfold implementations; repeat (first | exact List.mem_cons_self | apply List.mem_cons_of_mem)) s

/-- C86: without run-time detection the choice depends on the compile-time features only: the first listed target that is compiled for the architecture and
enabled, or the fallback. -/
theorem C86_static (b : Build) (cpu : Cpu) (d : Params) (hb : direct b = true) (i : Option Isa) :
    Runs b cpu d i ↔ i = d.targets.findSome? fun t => if b.flags t then compiled b t else none := by
  have h : resolve_static b = fun t => if b.flags t then compiled b t else none := by
    funext t
    obtain ⟨arch, detect, unstable, flags⟩ := b
    cases t <;> cases arch <;> cases unstable <;> simp [resolve_static, compiled, Arch.isX86]
  unfold Runs
  rw [if_pos hb, auto_direct, iter_resolve_static, h]

example : Used base64_find .sse2 ∧ ¬ Used base64_encode .sse2 ∧ ¬ Used uuid_parse_hyphenated .ssse3 ∧ Used unicode_utf16_swap .ssse3 :=
  ⟨(used_iff (l := [.avx2, .sse2, .neon32, .neon64, .wasm128]) (by simp [implementations]) _).2 (by decide),
   fun h => absurd ((C86_lists .sse2).1.1 h) (by decide), fun h => absurd ((C86_lists .ssse3).2.2.2.2.2.2.1.1 h) (by decide),
   (C86_lists .ssse3).2.2.2.2.2.2.2.2.2.2.2 (by decide)⟩

/-- A program for a 32-bit x86 target with SSE2 enabled at compile time and without run-time detection encodes hexadecimal with SSE2, and base64 without vectors. -/
example (cpu : Cpu) : Runs ⟨.x86, false, false, fun t => t == .sse2⟩ cpu hex_encode (some .sse2) ∧
    Runs ⟨.x86, false, false, fun t => t == .sse2⟩ cpu base64_encode none :=
  ⟨(C86_static _ cpu hex_encode (by decide) _).2 (by decide), (C86_static _ cpu base64_encode (by decide) _).2 (by decide)⟩

end Dispatch
end Simd
