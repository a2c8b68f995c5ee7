import Verif.Model.Dispatch
import Verif.Props.Hex
import Verif.Props.Base64
import Verif.Props.Forgiving
import Verif.Props.Base32
import Verif.Props.Uuid
import Verif.Props.Unicode
/-
Dispatch: properties C47 and C48.

`b` is any compile-time configuration, `cpu` the features of any CPU. `Runs b cpu d i`: some call of the dispatched
function `d`, made by one of any number of threads in any interleaving, executes implementation `i` (`none` = fallback).
-/
namespace Simd
namespace Dispatch

/-! ### C47 -/

/-- x86 feature levels include one another. -/
def Coherent (cpu : Cpu) : Prop := (cpu .avx2 = true → cpu .sse41 = true) ∧ (cpu .sse41 = true → cpu .ssse3 = true) ∧ (cpu .ssse3 = true → cpu .sse2 = true)

/-- The CPU has every feature the program was compiled for; otherwise running it at all is undefined behaviour. -/
def Valid (b : Build) (cpu : Cpu) : Prop := ∀ t, b.flags t = true → cpu t = true

/-- The architecture and the CPU features that the code of an instruction-set type uses. -/
def Executable (arch : Arch) (cpu : Cpu) : Isa → Prop
  | .sse2 => (arch = .x86 ∨ arch = .x86_64) ∧ cpu .sse2 = true
  | .ssse3 => (arch = .x86 ∨ arch = .x86_64) ∧ cpu .sse2 = true ∧ cpu .ssse3 = true
  | .sse41 => (arch = .x86 ∨ arch = .x86_64) ∧ cpu .sse2 = true ∧ cpu .ssse3 = true ∧ cpu .sse41 = true
  | .avx2 => (arch = .x86 ∨ arch = .x86_64) ∧ cpu .sse2 = true ∧ cpu .ssse3 = true ∧ cpu .sse41 = true ∧ cpu .avx2 = true
  | .neon32 => arch = .arm ∧ cpu .neon = true
  | .neon64 => arch = .aarch64 ∧ cpu .neon = true
  | .wasm128 => arch = .wasm32 ∧ cpu .simd128 = true

section
variable {b : Build} {cpu : Cpu} {d : Params}

theorem set_same (s : State) (t x) : (s.set t x).thread t = x := by simp [State.set]
theorem set_other (s : State) {t u} (x) (h : u ≠ t) : (s.set t x).thread u = s.thread u := by simp [State.set, h]

/-- What a thread may hold in a reachable state. -/
def ThreadOk (b : Build) (cpu : Cpu) (d : Params) : Thread → Prop
  | .idle => True
  | .auto => True
  | .call f => iter_resolve_static b d.fastest = none ∧ (f = .init_ifunc ∨ f = .impl (resolve b cpu d))
  | .store f => iter_resolve_static b d.fastest = none ∧ f = .impl (resolve b cpu d)
  | .run i => i = (iter_resolve_static b d.fastest).or (resolve b cpu d)

/-- The invariant. -/
def Inv (b : Build) (cpu : Cpu) (d : Params) (s : State) : Prop :=
  (∀ f ∈ s.ifunc, f = .init_ifunc ∨ f = .impl (resolve b cpu d)) ∧ ∀ t, ThreadOk b cpu d (s.thread t)

theorem Inv.set {s : State} (h : Inv b cpu d s) {t x} (hx : ThreadOk b cpu d x) : Inv b cpu d (s.set t x) := by
  refine ⟨h.1, fun u => ?_⟩
  by_cases hu : u = t
  · subst hu; rwa [set_same]
  · rw [set_other _ _ hu]; exact h.2 u

theorem Inv.step {s s' : State} (h : Inv b cpu d s) {t} (hs : Step b cpu d t s s') : Inv b cpu d s' := by
  cases hs with
  | enter _ => exact h.set trivial
  | static _ hi => refine h.set ?_; unfold ThreadOk; rw [hi]; rfl
  | load _ hi hf => exact h.set ⟨hi, h.1 _ hf⟩
  | init hc =>
    have := h.2 t
    rw [hc] at this
    exact h.set ⟨this.1, rfl⟩
  | store hc =>
    have := h.2 t
    rw [hc] at this
    refine Inv.set (s := ⟨_ :: s.ifunc, s.thread⟩) ⟨?_, h.2⟩ ⟨this.1, .inr this.2⟩
    intro f hf
    rcases List.mem_cons.1 hf with rfl | hf
    · exact .inr this.2
    · exact h.1 f hf
  | run hc =>
    have := h.2 t
    rw [hc] at this
    obtain ⟨h1, h2⟩ := this
    refine h.set ?_
    rcases h2 with h2 | h2
    · cases h2
    · cases h2; unfold ThreadOk; rw [h1]; rfl
  | ret _ => exact h.set trivial

theorem inv_reachable {s} (h : Reachable b cpu d s) : Inv b cpu d s := by
  induction h with
  | init => exact ⟨by intro f hf; exact .inl (List.mem_singleton.1 hf), fun _ => trivial⟩
  | step t _ hs ih => exact ih.step hs

/-- The only implementation that is ever executed. -/
def chosen (b : Build) (cpu : Cpu) (d : Params) : Option Isa :=
  if direct b then auto_direct b d else (iter_resolve_static b d.fastest).or (resolve b cpu d)

theorem Runs.eq {i} (h : Runs b cpu d i) : i = chosen b cpu d := by
  unfold Runs at h
  unfold chosen
  split at h
  · rename_i hd; rw [if_pos hd]; exact h
  · rename_i hd
    obtain ⟨s, t, hs, ht⟩ := h
    have := (inv_reachable hs).2 t
    rw [ht] at this
    rw [if_neg hd]; exact this

theorem findSome_mem {α β : Type} {f : α → Option β} {l : List α} {y} (h : l.findSome? f = some y) : ∃ x ∈ l, f x = some y := by
  obtain ⟨x, hx, he⟩ := List.exists_of_findSome?_eq_some h
  exact ⟨x, hx, he⟩

theorem compiled_executable (hc : Coherent cpu) {t s} (h : compiled b t = some s) (ht : cpu t = true) : Executable b.arch cpu s := by
  obtain ⟨h1, h2, h3⟩ := hc
  obtain ⟨arch, detect, unstable, flags⟩ := b
  cases t <;> cases arch <;> cases unstable <;> simp [compiled, Arch.isX86] at h <;> subst h <;> simp_all [Executable]

theorem static_compiled (hv : Valid b cpu) {t s} (h : resolve_static b t = some s) : compiled b t = some s ∧ cpu t = true := by
  have hv := hv t
  obtain ⟨arch, detect, unstable, flags⟩ := b
  cases t <;> cases arch <;> cases unstable <;> simp [resolve_static, compiled, Arch.isX86] at h hv ⊢ <;> simp_all

theorem dynamic_compiled (hv : Valid b cpu) {t s} (h : resolve_dynamic b cpu t = some s) : compiled b t = some s ∧ cpu t = true := by
  have hv := hv t
  obtain ⟨arch, detect, unstable, flags⟩ := b
  cases t <;> cases arch <;> cases detect <;> cases unstable <;>
    simp [resolve_dynamic, compiled, is_enabled, is_feature_detected, Arch.isX86] at h hv ⊢ <;> simp_all <;> grind

theorem static_executable (hc : Coherent cpu) (hv : Valid b cpu) {t s} (h : resolve_static b t = some s) : Executable b.arch cpu s ∧ compiled b t = some s ∧ cpu t = true :=
  have h' := static_compiled hv h
  ⟨compiled_executable hc h'.1 h'.2, h'⟩

theorem dynamic_executable (hc : Coherent cpu) (hv : Valid b cpu) {t s} (h : resolve_dynamic b cpu t = some s) : Executable b.arch cpu s ∧ compiled b t = some s ∧ cpu t = true :=
  have h' := dynamic_compiled hv h
  ⟨compiled_executable hc h'.1 h'.2, h'⟩

end

/-- C47: whatever the interleaving of any number of calls in any number of threads, all calls of a dispatched function execute the same implementation. -/
theorem C47_same (b : Build) (cpu : Cpu) (d : Params) {i j : Option Isa} (hi : Runs b cpu d i) (hj : Runs b cpu d j) : i = j := by
  rw [hi.eq, hj.eq]

/-- C47: an executed implementation is the fallback or uses only instructions that exist on the architecture and are supported by the CPU,
and it is one of the listed targets. -/
theorem C47_supported (b : Build) (cpu : Cpu) (hc : Coherent cpu) (hv : Valid b cpu) (d : Params) {s : Isa} (h : Runs b cpu d (some s)) :
    Executable b.arch cpu s ∧ ∃ t ∈ d.targets ++ d.fastest, compiled b t = some s ∧ cpu t = true := by
  have h := h.eq
  unfold chosen at h
  split at h
  · obtain ⟨t, ht, he⟩ := findSome_mem h.symm
    obtain ⟨h1, h2⟩ := static_executable hc hv he
    exact ⟨h1, t, List.mem_append_left _ ht, h2⟩
  · rcases hs : iter_resolve_static b d.fastest with _ | s'
    · rw [hs] at h
      obtain ⟨t, ht, he⟩ := findSome_mem h.symm
      obtain ⟨h1, h2⟩ := dynamic_executable hc hv he
      exact ⟨h1, t, List.mem_append_left _ ht, h2⟩
    · rw [hs] at h
      cases h
      obtain ⟨t, ht, he⟩ := findSome_mem hs
      obtain ⟨h1, h2⟩ := static_executable hc hv he
      exact ⟨h1, t, List.mem_append_right _ ht, h2⟩

/-- C47: with run-time detection, the executed implementation is that of the first listed target which exists on the architecture and is supported by
the CPU, or the fallback if there is none. This holds for each of the `dispatch!` invocations of the crates. -/
theorem C47_best (b : Build) (cpu : Cpu) (hv : Valid b cpu) (d : Params) (hd : d ∈ all) (hb : direct b = false) {i} (h : Runs b cpu d i) :
    i = d.targets.findSome? fun t => if cpu t then compiled b t else none := by
  rw [h.eq]
  unfold chosen
  rw [if_neg (by rw [hb]; decide)]
  have hall : ∀ d ∈ all, d.fastest = fastest ∧ ∃ ts, d.targets = .avx2 :: ts ++ [.neon, .simd128] ∧ ∀ t ∈ ts, t = .sse41 ∨ t = .ssse3 ∨ t = .sse2 := by
    intro d hd
    simp only [all, List.mem_cons, List.not_mem_nil, or_false] at hd
    rcases hd with rfl | rfl | rfl | rfl | rfl | rfl | rfl | rfl | rfl | rfl | rfl | rfl | rfl | rfl | rfl | rfl | rfl | rfl
    all_goals first
      | exact ⟨rfl, [.ssse3], rfl, by simp⟩
      | exact ⟨rfl, [.sse2], rfl, by simp⟩
      | exact ⟨rfl, [.sse41], rfl, by simp⟩
      | exact ⟨rfl, [.ssse3, .sse2], rfl, by simp⟩
  obtain ⟨hf, ts, ht, hts⟩ := hall d hd
  have hdyn : ∀ t, resolve_dynamic b cpu t = if cpu t then compiled b t else none := by
    intro t
    have hv := hv t
    obtain ⟨arch, detect, unstable, flags⟩ := b
    cases t <;> cases arch <;> cases detect <;> cases unstable <;>
      simp [resolve_dynamic, compiled, is_enabled, is_feature_detected, Arch.isX86, direct] at hb hv ⊢ <;> grind
  have hres : resolve b cpu d = d.targets.findSome? fun t => if cpu t then compiled b t else none := by
    unfold resolve
    congr 1
    exact funext hdyn
  cases hs : iter_resolve_static b d.fastest with
  | none => rw [Option.none_or, hres]
  | some s =>
    rw [Option.some_or, ht]
    rw [hf] at hs
    unfold iter_resolve_static fastest at hs
    have hts' : b.arch.isX86 = false → ts.findSome? (fun t => if cpu t then compiled b t else none) = none := by
      intro hx
      rw [List.findSome?_eq_none_iff]
      intro t h
      rcases hts t h with rfl | rfl | rfl <;> simp [compiled, hx]
    have hva := hv .avx2
    have hvn := hv .neon
    have hvs := hv .simd128
    rw [List.cons_append, List.findSome?_cons, List.findSome?_append]
    simp only [List.findSome?_cons, List.findSome?_nil] at hs ⊢
    clear hres hdyn h hall ht
    obtain ⟨arch, detect, unstable, flags⟩ := b
    cases arch <;> cases detect <;> cases unstable <;> simp [resolve_static, compiled, Arch.isX86, direct] at hs hts' hb hva hvn hvs ⊢ <;> grind

/-- C47: no call gets stuck: a thread inside a call can always make a step. -/
theorem C47_progress (b : Build) (cpu : Cpu) (d : Params) {s : State} (h : Reachable b cpu d s) (t : Nat) (ht : s.thread t ≠ .idle) :
    ∃ s', Step b cpu d t s s' := by
  have hne : s.ifunc ≠ [] := by
    clear ht
    induction h with
    | init => decide
    | step t _ hs ih => cases hs <;> first | exact ih | exact List.cons_ne_nil _ _
  cases hc : s.thread t with
  | idle => exact absurd hc ht
  | auto =>
    cases hs : iter_resolve_static b d.fastest with
    | some i => exact ⟨_, .static hc hs⟩
    | none =>
      obtain ⟨f, hf⟩ := List.exists_mem_of_ne_nil _ hne
      exact ⟨_, .load hc hs hf⟩
  | call f =>
    cases f with
    | init_ifunc => exact ⟨_, .init hc⟩
    | impl i => exact ⟨_, .run hc⟩
  | store f => exact ⟨_, .store hc⟩
  | run i => exact ⟨_, .ret hc⟩

/-- Steps a call still has to make, at most. -/
def Thread.left : Thread → Nat
  | .idle => 0
  | .run _ => 1
  | .call (.impl _) => 2
  | .store _ => 3
  | .call .init_ifunc => 4
  | .auto => 5

/-- C47: a call of `auto` returns after at most five own steps (the body of the implementation counting as one), whatever the other threads do: there is no
locking, no retry and no recursion. -/
theorem C47_terminates (b : Build) (cpu : Cpu) (d : Params) {s s' : State} (h : Reachable b cpu d s) {t : Nat} (hs : Step b cpu d t s s') :
    (s.thread t ≠ .idle → (s'.thread t).left < (s.thread t).left) ∧ (∀ u, u ≠ t → s'.thread u = s.thread u) ∧ (s.thread t).left ≤ 5 := by
  have hinv := (inv_reachable h).2 t
  refine ⟨fun hne => ?_, fun u hu => ?_, ?_⟩
  · cases hs with
    | enter hc => exact absurd hc hne
    | static hc _ => rw [hc, set_same]; simp [Thread.left]
    | load hc hi hf =>
      rw [hc, set_same]
      rename_i f
      cases f <;> simp [Thread.left]
    | init hc => rw [hc, set_same]; simp [Thread.left]
    | store hc =>
      rw [hc] at hinv ⊢
      rw [set_same, hinv.2]; simp [Thread.left]
    | run hc => rw [hc, set_same]; simp [Thread.left]
    | ret hc => rw [hc, set_same]; simp [Thread.left]
  · cases hs <;> rw [set_other _ _ hu]
  · cases s.thread t with
    | call f => cases f <;> simp [Thread.left]
    | _ => simp [Thread.left]

/-! #### Examples -/

/-- An x86-64 program with run-time detection, compiled for the baseline (SSE2). -/
def exBuild : Build := ⟨.x86_64, true, false, fun t => t == .sse2⟩
/-- A CPU with SSE4.1 but without AVX2. -/
def exCpu : Cpu := fun t => t == .sse2 || t == .ssse3 || t == .sse41

example : Coherent exCpu ∧ Valid exBuild exCpu ∧ direct exBuild = false ∧ chosen exBuild exCpu base32_encode = some .sse41 ∧
    chosen exBuild exCpu base64_encode = some .ssse3 ∧ chosen exBuild exCpu hex_check = some .sse2 := by
  refine ⟨by unfold Coherent; decide, ?_, by decide, by decide, by decide, by decide⟩
  intro t; cases t <;> decide

/-- Thread `0` makes a complete first call. -/
theorem runs_first (b : Build) (cpu : Cpu) (d : Params) (hb : direct b = false) (hs : iter_resolve_static b d.fastest = none) : Runs b cpu d (resolve b cpu d) := by
  unfold Runs
  rw [if_neg (by rw [hb]; decide)]
  have s1 : Reachable b cpu d _ := .step 0 .init (.enter rfl)
  have s2 : Reachable b cpu d _ := .step 0 s1 (.load (f := .init_ifunc) rfl hs (by simp [State.init, State.set]))
  have s3 : Reachable b cpu d _ := .step 0 s2 (.init rfl)
  have s4 : Reachable b cpu d _ := .step 0 s3 (.store rfl)
  have s5 : Reachable b cpu d _ := .step 0 s4 (.run rfl)
  exact ⟨_, 0, s5, rfl⟩

example : Runs exBuild exCpu base32_encode (some .sse41) := runs_first exBuild exCpu base32_encode (by decide) (by decide)

/-- Two threads race: both read `init_ifunc`, thread 1 stores and runs, then thread 0 stores. -/
example : ∃ s, Reachable exBuild exCpu hex_encode s ∧ s.thread 1 = .run (some .ssse3) ∧ s.thread 0 = .call (.impl (some .ssse3)) ∧ s.ifunc.length = 3 := by
  have hs : iter_resolve_static exBuild hex_encode.fastest = none := by decide
  have s1 : Reachable exBuild exCpu hex_encode _ := .step 0 .init (.enter rfl)
  have s2 : Reachable exBuild exCpu hex_encode _ := .step 1 s1 (.enter rfl)
  have s3 : Reachable exBuild exCpu hex_encode _ := .step 0 s2 (.load (f := .init_ifunc) rfl hs (by simp [State.init, State.set]))
  have s4 : Reachable exBuild exCpu hex_encode _ := .step 1 s3 (.load (f := .init_ifunc) rfl hs (by simp [State.init, State.set]))
  have s5 : Reachable exBuild exCpu hex_encode _ := .step 1 s4 (.init rfl)
  have s6 : Reachable exBuild exCpu hex_encode _ := .step 1 s5 (.store rfl)
  have s7 : Reachable exBuild exCpu hex_encode _ := .step 1 s6 (.run rfl)
  have s8 : Reachable exBuild exCpu hex_encode _ := .step 0 s7 (.init rfl)
  have s9 : Reachable exBuild exCpu hex_encode _ := .step 0 s8 (.store rfl)
  exact ⟨_, s9, rfl, rfl, rfl⟩

/-! ### C48 -/

section
variable {b : Build} {cpu : Cpu} {d : Params}

theorem Runs.target {s} (h : Runs b cpu d (some s)) : ∃ t ∈ d.targets ++ d.fastest, compiled b t = some s := by
  have hst : ∀ {t s}, resolve_static b t = some s → compiled b t = some s := by
    intro t s h
    obtain ⟨arch, detect, unstable, flags⟩ := b
    cases t <;> cases arch <;> cases unstable <;> simp [resolve_static, compiled, Arch.isX86] at h ⊢ <;> simp_all
  have h := h.eq
  unfold chosen at h
  split at h
  · obtain ⟨t, ht, he⟩ := findSome_mem h.symm
    exact ⟨t, List.mem_append_left _ ht, hst he⟩
  · rcases hs : iter_resolve_static b d.fastest with _ | s'
    · rw [hs] at h
      obtain ⟨t, ht, he⟩ := findSome_mem h.symm
      refine ⟨t, List.mem_append_left _ ht, ?_⟩
      unfold resolve_dynamic at he
      split at he
      · rename_i hc; rw [hc]
        split at he
        · exact he
        · cases he
      · cases he
    · rw [hs] at h
      cases h
      obtain ⟨t, ht, he⟩ := findSome_mem hs
      exact ⟨t, List.mem_append_right _ ht, hst he⟩

theorem compiled_x86 {t} : (compiled b t = some .sse2 → t = .sse2) ∧ (compiled b t = some .ssse3 → t = .ssse3) ∧ (compiled b t = some .sse41 → t = .sse41) := by
  obtain ⟨arch, detect, unstable, flags⟩ := b
  cases t <;> cases arch <;> cases unstable <;> simp [compiled, Arch.isX86]

theorem Runs.ne_sse2 {i} (h : Runs b cpu d i) (hd : Target.sse2 ∉ d.targets ++ d.fastest) : i ≠ some .sse2 := by
  rintro rfl
  obtain ⟨t, ht, hc⟩ := h.target
  exact hd (compiled_x86.1 hc ▸ ht)

theorem Runs.ne_ssse3 {i} (h : Runs b cpu d i) (hd : Target.ssse3 ∉ d.targets ++ d.fastest) : i ≠ some .ssse3 := by
  rintro rfl
  obtain ⟨t, ht, hc⟩ := h.target
  exact hd (compiled_x86.2.1 hc ▸ ht)

end

/-- C48 for base64: whatever the CPU and the compile-time configuration, and whichever calls ran before or run concurrently, no call panics, reaches an unimplemented vector
operation or does anything undefined. -/
theorem C48_base64 (b : Build) (cpu : Cpu) (P : Plat) (config : Base64.Config) (xs : List Byte) (ds : List Cell) (hx : xs.length ≤ P.isizeMax) {c e d f : Option Isa}
    (hc : Runs b cpu base64_check c) (he : Runs b cpu base64_encode e) (hd : Runs b cpu base64_decode d) (_ : Runs b cpu base64_find f) :
    ((Base64.check c config (whole 0 xs.length)).run (Mem.ofBufs [xs.map some])).Safe ∧
    ((Base64.encode P e config (whole 0 xs.length) (whole 1 ds.length)).run (Mem.ofBufs [xs.map some, ds])).Safe ∧
    ((Base64.decode d config (whole 0 xs.length) (whole 1 ds.length)).run (Mem.ofBufs [xs.map some, ds])).Safe ∧
    ((Base64.decode_inplace d config (whole 0 xs.length)).run (Mem.ofBufs [xs.map some])).Safe ∧
    ((Base64.find_non_ascii_whitespace f (whole 0 xs.length)).run (Mem.ofBufs [xs.map some])).Safe ∧
    ((Base64.forgiving_decode f d (whole 0 xs.length) (whole 1 ds.length)).run (Mem.ofBufs [xs.map some, ds])).Safe ∧
    ((Base64.forgiving_decode_inplace f d (whole 0 xs.length)).run (Mem.ofBufs [xs.map some])).Safe := by
  have hc := hc.ne_sse2 (by decide)
  have he := he.ne_sse2 (by decide)
  have hd := hd.ne_sse2 (by decide)
  refine ⟨(Base64.C10_safe P hc config xs ds hx).1, (Base64.C10_safe P he config xs ds hx).2.1, (Base64.C10_safe P hd config xs ds hx).2.2.1,
    (Base64.C10_safe P hd config xs ds hx).2.2.2, ?_, ?_, ?_⟩
  · obtain ⟨k, hk, -⟩ := Base64.C18_find f xs
    rw [hk]; trivial
  · by_cases hl : xs.length ≤ ds.length
    · cases h : Spec.forgivingDecode xs with
      | none => obtain ⟨_, h1, -⟩ := Base64.C12_copy_err f hd xs ds hl h; rw [h1]; trivial
      | some ys => obtain ⟨_, h1, -⟩ := Base64.C12_copy_ok f hd xs ys ds hl h; rw [h1]; trivial
    · rw [Base64.C12_copy_short f d xs ds (by omega)]; trivial
  · cases h : Spec.forgivingDecode xs with
    | none => obtain ⟨_, h1, -⟩ := Base64.C12_inplace_err f hd xs h; rw [h1]; trivial
    | some ys => obtain ⟨_, h1, -⟩ := Base64.C12_inplace_ok f hd xs ys h; rw [h1]; trivial

/-- C48 for base32. -/
theorem C48_base32 (b : Build) (cpu : Cpu) (P : Plat) (w : Bool) (config : Base32.Config) (xs : List Byte) (ds : List Cell) (hx : xs.length ≤ P.isizeMax) {c e d : Option Isa}
    (hc : Runs b cpu base32_check c) (he : Runs b cpu base32_encode e) (hd : Runs b cpu base32_decode d) :
    ((Base32.check c config (whole 0 xs.length)).run (Mem.ofBufs [xs.map some])).Safe ∧
    ((Base32.encode P w e config (whole 0 xs.length) (whole 1 ds.length)).run (Mem.ofBufs [xs.map some, ds])).Safe ∧
    ((Base32.decode w d config (whole 0 xs.length) (whole 1 ds.length)).run (Mem.ofBufs [xs.map some, ds])).Safe ∧
    ((Base32.decode_inplace w d config (whole 0 xs.length)).run (Mem.ofBufs [xs.map some])).Safe := by
  have hc := hc.ne_sse2 (by decide)
  have good : ∀ {i : Option Isa}, i ≠ some .sse2 → i ≠ some .ssse3 → Base32.Impl i := fun h1 h2 s hs =>
    ⟨fun h => h1 (by rw [hs, h]), fun h => h2 (by rw [hs, h])⟩
  have he := good (he.ne_sse2 (by decide)) (he.ne_ssse3 (by decide))
  have hd := good (hd.ne_sse2 (by decide)) (hd.ne_ssse3 (by decide))
  exact ⟨(Base32.C27_safe P w he hc config xs ds hx).1, (Base32.C27_safe P w he hc config xs ds hx).2.1, (Base32.C27_safe P w hd hc config xs ds hx).2.2.1,
    (Base32.C27_safe P w hd hc config xs ds hx).2.2.2⟩

/-- C48 for hex. -/
theorem C48_hex (b : Build) (cpu : Cpu) (P : Plat) (case : AsciiCase) (xs : List Byte) (ds : List Cell) (hx : ds.length ≤ P.usizeMax) {c e d : Option Isa}
    (_ : Runs b cpu hex_check c) (_ : Runs b cpu hex_encode e) (_ : Runs b cpu hex_decode d) :
    ((Hex.check c (whole 0 xs.length)).run (Mem.ofBufs [xs.map some])).Safe ∧
    ((Hex.encode P e (whole 0 xs.length) (whole 1 ds.length) case).run (Mem.ofBufs [xs.map some, ds])).Safe ∧
    ((Hex.decode d (whole 0 xs.length) (whole 1 ds.length)).run (Mem.ofBufs [xs.map some, ds])).Safe ∧
    ((Hex.decode_inplace d (whole 0 xs.length)).run (Mem.ofBufs [xs.map some])).Safe :=
  ⟨(Hex.C36_safe P c case xs ds hx).1, (Hex.C36_safe P e case xs ds hx).2.1, (Hex.C36_safe P d case xs ds hx).2.2.1, (Hex.C36_safe P d case xs ds hx).2.2.2⟩

/-- C48 for uuid. -/
theorem C48_uuid (b : Build) (cpu : Cpu) (case : AsciiCase) (xs : List Byte) (ds : List Cell) {ps ph fs fh : Option Isa}
    (_ : Runs b cpu uuid_parse_simple ps) (hp : Runs b cpu uuid_parse_hyphenated ph) (_ : Runs b cpu uuid_format_simple fs) (hf : Runs b cpu uuid_format_hyphenated fh) :
    (ds.length = 16 → ((Uuid.parse ps ph (whole 0 xs.length) ⟨1, 0⟩).run (Mem.ofBufs [xs.map some, ds])).Safe ∧
      ((Uuid.parse_simple ps (whole 0 xs.length) ⟨1, 0⟩).run (Mem.ofBufs [xs.map some, ds])).Safe ∧
      ((Uuid.parse_hyphenated ph (whole 0 xs.length) ⟨1, 0⟩).run (Mem.ofBufs [xs.map some, ds])).Safe) ∧
    (xs.length = 16 → ds.length = 32 → ((Uuid.format_simple fs ⟨0, 0⟩ ⟨1, 0⟩ case).run (Mem.ofBufs [xs.map some, ds])).Safe) ∧
    (xs.length = 16 → ds.length = 36 → ((Uuid.format_hyphenated fh ⟨0, 0⟩ ⟨1, 0⟩ case).run (Mem.ofBufs [xs.map some, ds])).Safe) := by
  have hp : Uuid.HypImpl ph := ⟨hp.ne_sse2 (by decide), hp.ne_ssse3 (by decide)⟩
  have hf : Uuid.HypImpl fh := ⟨hf.ne_sse2 (by decide), hf.ne_ssse3 (by decide)⟩
  refine ⟨fun hd => ?_, fun hu hd => ((Uuid.C42_format fs fs hf hf case xs ds hu).1 hd).2, fun hu hd => ((Uuid.C42_format fs fs hf hf case xs ds hu).2 hd).2⟩
  obtain ⟨h1, h2, h3⟩ := Uuid.C42_parse ps ps hp hp xs ds hd
  refine ⟨?_, ?_, ?_⟩
  · rcases h1 with ⟨_, _, h, _⟩ | ⟨_, _, _, _, h, _⟩ <;> rw [h] <;> trivial
  · rcases h2 with ⟨_, _, h, _⟩ | ⟨_, _, _, _, h, _⟩ <;> rw [h] <;> trivial
  · rcases h3 with ⟨_, _, h, _⟩ | ⟨_, _, _, _, h, _⟩ <;> rw [h] <;> trivial

/-- C48 for the validators of unicode-simd. -/
theorem C48_unicode_checks (b : Build) (cpu : Cpu) (x64 : Bool) (xs : List Byte) (ws : List (BitVec 32)) {a u : Option Isa}
    (_ : Runs b cpu unicode_is_ascii a) (hu : Runs b cpu unicode_is_utf32le u) :
    ((Unicode.is_ascii x64 a (whole 0 xs.length)).run (Mem.ofBufs [xs.map some])).Safe ∧
    ((Unicode.is_utf32le u (whole 0 ws.length)).run (Mem.ofBufs [(Spec.wordBytes 4 ws).map some])).Safe := by
  rw [Unicode.C43_is_ascii, Unicode.C44_is_utf32le ⟨hu.ne_sse2 (by decide), hu.ne_ssse3 (by decide)⟩]
  exact ⟨trivial, trivial⟩

/-- The `dispatch!` invocation of a public swap function. -/
def IsSwap (t : Unicode.Elem) (d : Params) : Prop := (t = .u16 ∧ d = unicode_utf16_swap) ∨ (t = .u32 ∧ d = unicode_utf32_swap)

/-- C48 for the swaps, the part that holds: they return normally wherever the executed implementation is not that of SSSE3. Missing: SSSE3 and at least one
full vector of elements, where the claim is false. -/
theorem C48_swap_partial (b : Build) (cpu : Cpu) {t : Unicode.Elem} {d : Params} (hs : IsSwap t d) {i : Option Isa} (hi : Runs b cpu d i) (n : Nat) (h : i ≠ some .ssse3 ∨ n < t.lanes)
    (xs : List Byte) (hl : xs.length = t.size * n) (ds : List Cell) (k : Nat) (hd : ds.length = t.size * k) (hk : n ≤ k) :
    ((Unicode.swap_endianness_inplace t i (whole 0 n)).run (Mem.ofBufs [xs.map some])).Safe ∧
    ((Unicode.swap_endianness t i (whole 0 n) (whole 1 k)).run (Mem.ofBufs [xs.map some, ds])).Safe := by
  have hs : Unicode.SwapImpl t i n := by
    rcases h with h | h
    · exact .inl ⟨hi.ne_sse2 (by rcases hs with ⟨-, rfl⟩ | ⟨-, rfl⟩ <;> decide), h⟩
    · exact .inr h
  rw [Unicode.swap_inplace_run hs hl, Unicode.swap_run hs hl ds hd hk]
  exact ⟨trivial, trivial⟩

/-- C48 for the swaps: exactly when the claim fails. With run-time detection on x86, a swap of at least one full vector of elements panics if and only if the CPU has
SSSE3 but not AVX2. -/
theorem C48_swap_exact (b : Build) (cpu : Cpu) (hv : Valid b cpu) (hb : direct b = false) (hx : b.arch = .x86 ∨ b.arch = .x86_64) {t : Unicode.Elem} {d : Params} (hs : IsSwap t d) {i : Option Isa}
    (hi : Runs b cpu d i) (n : Nat) (hn : t.lanes ≤ n) (xs : List Byte) (hl : xs.length = t.size * n) :
    (Unicode.swap_endianness_inplace t i (whole 0 n)).run (Mem.ofBufs [xs.map some]) = .panic ↔ cpu .ssse3 = true ∧ cpu .avx2 = false := by
  have hbest := C47_best b cpu hv d (by rcases hs with ⟨-, rfl⟩ | ⟨-, rfl⟩ <;> simp [all]) hb hi
  have hisx : b.arch.isX86 = true := by rcases hx with h | h <;> rw [h] <;> rfl
  have htar : d.targets = [.avx2, .ssse3, .neon, .simd128] := by rcases hs with ⟨-, rfl⟩ | ⟨-, rfl⟩ <;> rfl
  have hval : i = if cpu .avx2 then some .avx2 else if cpu .ssse3 then some .ssse3 else none := by
    rw [hbest, htar]
    have hn : compiled b .neon = none := by rcases hx with h | h <;> simp [compiled, h]
    have hw : compiled b .simd128 = none := by rcases hx with h | h <;> simp [compiled, h]
    simp only [List.findSome?_cons, List.findSome?_nil, hn, hw]
    cases cpu .avx2 <;> cases cpu .ssse3 <;> simp [compiled, hisx]
  by_cases h : cpu .ssse3 = true ∧ cpu .avx2 = false
  · rw [h.1, h.2] at hval
    refine iff_of_true ?_ h
    rw [hval]
    exact (Unicode.C46_panics t n xs hl hn [] 0).2.1
  · refine iff_of_false ?_ h
    have hne : i ≠ some .ssse3 := by
      rw [hval]; revert h; cases cpu .avx2 <;> cases cpu .ssse3 <;> decide
    have := (C48_swap_partial b cpu hs hi n (.inl hne) xs hl ((List.replicate (t.size * n) none)) n (by simp) (Nat.le_refl _)).1
    intro hp
    rw [hp] at this
    exact this

/-- C48, violation: an x86-64 program built with default settings panics on a CPU with SSE4.1 but without AVX2 when it swaps 16 zero elements. -/
theorem C48_violated : ¬ ∀ (b : Build) (cpu : Cpu), Coherent cpu → Valid b cpu → ∀ (t : Unicode.Elem) (d : Params), IsSwap t d → ∀ (i : Option Isa), Runs b cpu d i →
    ∀ (n : Nat) (xs : List Byte), xs.length = t.size * n → ((Unicode.swap_endianness_inplace t i (whole 0 n)).run (Mem.ofBufs [xs.map some])).Safe := by
  intro h
  have := h exBuild exCpu (by unfold Coherent; decide) (by intro t; cases t <;> decide) .u16 _ (.inl ⟨rfl, rfl⟩) (some .ssse3)
    (runs_first exBuild exCpu unicode_utf16_swap (by decide) (by decide)) 16 (List.replicate 32 0) rfl
  rw [(Unicode.C46_panics .u16 16 (List.replicate 32 0) rfl (by decide) [] 0).2.1] at this
  exact this

example : Runs exBuild exCpu base64_check (some .ssse3) ∧ Runs exBuild exCpu base64_find (some .sse2) ∧ Runs exBuild exCpu uuid_parse_hyphenated (some .sse41) ∧
    Runs exBuild exCpu unicode_is_ascii (some .sse2) ∧ Runs exBuild exCpu unicode_is_utf32le (some .sse41) ∧ Runs exBuild (fun _ => false) hex_encode (some .sse2) :=
  ⟨runs_first exBuild exCpu base64_check (by decide) (by decide), runs_first exBuild exCpu base64_find (by decide) (by decide),
    runs_first exBuild exCpu uuid_parse_hyphenated (by decide) (by decide), runs_first exBuild exCpu unicode_is_ascii (by decide) (by decide),
    runs_first exBuild exCpu unicode_is_utf32le (by decide) (by decide),
    runs_first exBuild (fun _ => false) hex_encode (by decide) (by decide)⟩

end Dispatch
end Simd
