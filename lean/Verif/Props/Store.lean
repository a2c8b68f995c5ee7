import Verif.Lemmas.Store
/-
C90: programs that use the crates do the same on all machines.
-/
namespace Simd
open Spec Borrow Client

namespace Client

theorem Run.reaches {M : Machine} {p : Program} {h : List Seen} {w : World} (hr : Run M p h w) : Reaches M w := by
  induction hr with
  | start => exact .start
  | step _ _ hl he ih => exact .step ih hl he

end Client

/-- C90: a step that goes on leaves in the variables what `Step` says, and the program gets to know what `Step` says; there, variables hold bytes, and there are no addresses, capacities or
implementations. -/
theorem C90_step (M : Machine) {w w' : World} (h : Reaches M w) {a : Store} (hs : Shows w a) {op : Op} (hl : Legal M w op) (he : exec M.P w op = .ok w') :
    ∃ a', Shows w' a' ∧ Step a (seen M.P w op) a' op := step_value (reaches_inv h) hs hl he

/-- C90: every run of a program on a machine is one of its runs without memory. -/
theorem C90_program (M : Machine) {p : Program} {h : List Seen} {w : World} (hr : Run M p h w) : ∃ a, Eval p h a ∧ Shows w a := by
  induction hr with
  | start => exact ⟨_, .start, fun _ => .inl ⟨rfl, rfl⟩⟩
  | step hr hp hl he ih =>
    obtain ⟨a, h1, h2⟩ := ih
    obtain ⟨a', h3, h4⟩ := C90_step M hr.reaches h2 hl he
    exact ⟨a', .step h1 hp (step_source.1 h4), h3⟩

/-- C90: the runs without memory of a program that uses no bytes which the functions leave open are the same. -/
theorem C90_determined {p : Program} (hp : Settled p) {h h' : List Seen} {a a' : Store} (e : Eval p h a) (e' : Eval p h' a') (hl : h.length = h'.length) : h = h' ∧ a = a' := by
  induction e generalizing h' a' with
  | start =>
    cases e' with
    | start => exact ⟨rfl, rfl⟩
    | step => simp at hl
  | step e1 h1 h2 ih =>
    cases e' with
    | start => simp at hl
    | step e1' h1' h2' =>
      obtain ⟨rfl, rfl⟩ := ih e1' (by simpa using hl)
      rw [h1] at h1'; cases h1'
      obtain ⟨rfl, rfl⟩ := step_unique (hp _ _ _ e1 h1) h2 h2'
      exact ⟨rfl, rfl⟩

/-- C90: on any two machines, with any implementations and capacities, a program that uses no bytes which the functions leave open sees the same, takes the same branches, and has the same bytes
in its variables after the same number of steps. -/
theorem C90_same (M M' : Machine) {p : Program} (hp : Settled p) {h h' : List Seen} {w w' : World} (hr : Run M p h w) (hr' : Run M' p h' w') (hl : h.length = h'.length) :
    h = h' ∧ ∃ a, Shows w a ∧ Shows w' a := by
  obtain ⟨a, h1, h2⟩ := C90_program M hr
  obtain ⟨a', h1', h2'⟩ := C90_program M' hr'
  obtain ⟨rfl, rfl⟩ := C90_determined hp h1 h1' hl
  exact ⟨rfl, a, h2, h2'⟩

/-- When a step surely does not panic: no byte swap to a shorter slice; a result that is allocated or appended is not too long for the machine. -/
def RoomFor (P : Plat) : Op → Prop
  | .call c => ¬ ShortSwap c
  | .heap _ c => c.held + 2 * c.shared.len + 6 + c.extra ≤ P.isizeMax
  | _ => True

/-- C90: no other step than these panics, so the program goes on. -/
theorem C90_goes_on (M : Machine) {w : World} (h : Reaches M w) {op : Op} (hl : Legal M w op) (hr : RoomFor M.P op) : ∃ w', exec M.P w op = .ok w' := by
  cases op with
  | heap x c => exact C89_goes_on M h hl hr
  | new x text bs cap => obtain ⟨o, s', h1, -⟩ := new_value (P := M.P) w x text hl.2.1; exact ⟨_, h1⟩
  | move | truncate | intoBytes => exact ⟨_, rfl⟩
  | read x off n => exact read_goes_on (reaches_inv h) hl
  | write x off bs => exact write_goes_on (reaches_inv h) hl
  | call c => exact call_goes_on (reaches_inv h) hl hr
  | drop x => exact drop_goes_on (reaches_inv h) hl

/-! ### A program -/

namespace Client

/-- `let a = b"Hi!".to_vec(); let b = hex_simd::encode_to_string(&a, AsciiCase::Lower);` and, if `b` has six bytes, reading `b[2..6]`. -/
def shown : Program
  | [] => some (.new 0 false hi 0)
  | [_] => some (.heap 1 (.hexEncode none .lower ⟨⟨0, 0⟩, 3⟩ .string))
  | [_, .length 6] => some (.read 1 2 4)
  | _ => none

/-- It runs to the end on every machine, and reads `6921`. -/
theorem shown_runs (M : Machine) {i : Option Isa} (hi' : M.Runs Dispatch.hex_encode i) (hm : 100 ≤ M.P.isizeMax) : ∃ w, Run M shown [.nothing, .length 6, .bytes [0x36#8, 0x39#8, 0x32#8, 0x31#8]] w := by
  have next : ∀ {h w a op}, Run M shown h w → Shows w a → shown h = some (source op) → Legal M w op → (∃ w', exec M.P w op = .ok w') →
      ∃ w' a' v, Run M shown (h ++ [v]) w' ∧ Shows w' a' ∧ Step a v a' op := fun {h w a op} hr hs hp hl he => by
    obtain ⟨w', he⟩ := he
    obtain ⟨a', h1, h2⟩ := C90_step M hr.reaches hs hl he
    exact ⟨w', a', _, .step hr hp hl he, h1, h2⟩
  obtain ⟨w1, a1, v1, r1, s1, rfl, rfl⟩ := next (op := .new 0 false hi 4) .start (a := fun _ => none) (fun _ => .inl ⟨rfl, rfl⟩) rfl ⟨rfl, by decide, by omega, nofun⟩
    (by obtain ⟨o, s', h1, -⟩ := new_value (P := M.P) World.start 0 false (bs := hi) (cap := 4) (by decide); exact ⟨_, h1⟩)
  have l2 : Legal M w1 (.heap 1 (.hexEncode i .lower ⟨⟨0, 0⟩, 3⟩ .string)) := by
    refine ⟨hi', ?_, ?_⟩
    · rcases s1 0 with ⟨-, h⟩ | ⟨o, ty, ys, h1, h2, -, h3, -⟩
      · cases h
      · cases h2; exact ⟨o, h1, by rw [← h3]; show 0 + 3 ≤ hi.length; decide⟩
    · rcases s1 1 with ⟨h, -⟩ | ⟨o, ty, ys, h1, h2, -⟩
      · exact h
      · cases h2
  obtain ⟨w2, a2, v2, r2, s2, xs, res, ⟨ty, ys, e1, -, e2⟩, e3, e4⟩ := next r1 s1 rfl l2 (C90_goes_on M r1.reaches l2 (by show 0 + 2 * 3 + 6 + 0 ≤ _; omega))
  cases e1
  subst e2
  have e3 : res = some (hexEncode false hi) := e3
  subst e3
  obtain ⟨rfl, rfl⟩ := e4
  have l3 : Legal M w2 (.read 1 2 4) := by
    rcases s2 1 with ⟨-, h⟩ | ⟨o, ty, ys, h1, h2, -, h3, -⟩
    · cases h
    · cases h2; exact ⟨o, h1, by rw [← h3]; decide⟩
  obtain ⟨w3, a3, v3, r3, s3, xs, ⟨ty, ys, e1, -, e2⟩, rfl, rfl⟩ := next (op := .read 1 2 4) r2 s2 rfl l3 (C90_goes_on M r2.reaches l3 trivial)
  cases e1
  subst e2
  exact ⟨w3, r3⟩

theorem shown_settled : Settled shown := fun h a op _ hp => by
  unfold shown at hp
  split at hp <;> cases hp <;> trivial

/-- The hypotheses of `C90_same` are met: a 64-bit machine with AVX2 and a wasm32 machine. -/
example : Settled shown ∧ (∃ h w, Run sender shown h w ∧ h.length = 3) ∧ ∃ h w, Run receiver shown h w ∧ h.length = 3 := by
  refine ⟨shown_settled, ?_, ?_⟩
  · obtain ⟨w, h⟩ := shown_runs sender (i := some .avx2) (Dispatch.runs_first _ _ _ (by decide) (by decide)) (by decide)
    exact ⟨_, w, h, rfl⟩
  · obtain ⟨w, h⟩ := shown_runs receiver (i := some .wasm128) (by
      unfold Machine.Runs Dispatch.Runs; rw [if_pos (by decide)]; exact (show Dispatch.auto_direct receiver.build Dispatch.hex_encode = some .wasm128 by decide).symm) (by decide)
    exact ⟨_, w, h, rfl⟩

/-- Not all programs are settled: after a failed decoding, what is in the destination is open. -/
example : ∃ a, ¬ Exact a (.call (.hexDecode none ⟨⟨0, 0⟩, 1⟩ ⟨⟨1, 0⟩, 1⟩)) := by
  refine ⟨fun _ => some (.vec, [0x5a#8]), fun h => ?_⟩
  have := h [0x5a#8] none ⟨.vec, _, rfl, by decide, rfl⟩ ⟨none, fun ⟨ys, hy⟩ => ?_, rfl⟩
  · exact absurd this (by decide)
  · have := congrArg List.length hy
    rw [Hex.hexEncode_length] at this
    have : 1 = 2 * ys.length := this
    omega

end Client

end Simd
