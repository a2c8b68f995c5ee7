import Verif.Lemmas.ClientValue
import Verif.Props.Panics
/-
C89: safe Rust programs that use the crates.
-/
namespace Simd
open Spec Borrow Client

namespace Client

theorem reaches_inv {M : Machine} {w : World} (h : Reaches M w) : Inv M.P w := by
  induction h with
  | start => exact inv_start _
  | step _ hl he ih =>
    have := step_fine ih hl
    rw [he] at this
    exact this.1

theorem heap_panics {M : Machine} {w : World} (hI : Inv M.P w) {x : Nat} {α : Type} {c : HeapCall α} (h : Legal M w (.heap x c))
    (hret : (untagHeap w.st (w.argsHeap c)).RunsOn M → (untagHeap w.st (w.argsHeap c)).Borrows M.P w.st.mem → Returns ((untagHeap w.st (w.argsHeap c)).prog M.P) w.st.mem) :
    ∃ w', exec M.P w (.heap x c) = .ok w' := by
  obtain ⟨hr, hs, hvar⟩ := h
  obtain ⟨hr', hb, h⟩ := heap_borrows hI hr hs (x := x) fun v e => by rw [e] at hvar; exact hvar
  show ∃ w', w.after ((w.argsHeap c).borrow M.P w.st) (fun r => w.set x (some (result (w.vars x) c r))) = .ok w'
  have := hret hr' hb
  unfold ObeysHeap at h
  split at h
  · rename_i e _; rw [e]; exact ⟨_, rfl⟩
  · rename_i e _; rw [e]; exact ⟨_, rfl⟩
  · rename_i e; rcases this with ⟨_, _, h⟩ | ⟨_, h⟩ <;> rw [h] at e <;> cases e
  · exact h.elim

end Client

/-- C89: no safe program has undefined behaviour. From the start, after any number of steps that the compiler accepts in safe Rust, with any values, functions, implementations, lengths and
capacities, the next such step goes on or panics: it reads nothing uninitialised, accesses nothing out of bounds or deallocated, frees nothing twice or with a wrong size, and no reference is
used that the aliasing rules have made invalid. -/
theorem C89_sound (M : Machine) {w : World} (h : Reaches M w) {op : Op} (hl : Legal M w op) : exec M.P w op ≠ .ub := fun e => by
  have := step_fine (reaches_inv h) hl
  rw [e] at this
  exact this

/-- C89: what the variables hold is valid after every number of steps: each owns an allocation that no other variable owns, its content is initialised, and that of a `Box<str>` or `String` is UTF-8. -/
theorem C89_valid (M : Machine) {w : World} (h : Reaches M w) :
    (∀ x o, w.vars x = some o → Valid M.P w.st o) ∧
    ∀ x y o o', w.vars x = some o → w.vars y = some o' → w.st.home (ownerOf o).1.buf = w.st.home (ownerOf o').1.buf → x = y :=
  ⟨(reaches_inv h).valid, (reaches_inv h).apart⟩

/-- C89: nothing is leaked. After every number of steps all memory that no variable owns has been freed; after the ends of all scopes, all memory. -/
theorem C89_no_leak (M : Machine) {w : World} (h : Reaches M w) {b : Nat} (hb : b < w.st.mem.nbuf) (hn : ∀ x o, w.vars x = some o → w.st.home (ownerOf o).1.buf ≠ b) : Freed w.st b :=
  (reaches_inv h).freed b hb hn

/-- C89: a step leaves the variables that it does not change as they are: the same memory with the same bytes. -/
theorem C89_others (M : Machine) {w w' : World} (h : Reaches M w) {op : Op} (hl : Legal M w op) (he : exec M.P w op = .ok w') : Keeps w w' (Changes · op) := by
  have := step_fine (reaches_inv h) hl
  rw [he] at this
  exact this.2

/-- C89: the program goes on after a call that allocates, unless the result could be too long. -/
theorem C89_goes_on (M : Machine) {w : World} (h : Reaches M w) {x : Nat} {α : Type} {c : HeapCall α} (hl : Legal M w (.heap x c))
    (hm : c.held + 2 * c.shared.len + 6 + c.extra ≤ M.P.isizeMax) : ∃ w', exec M.P w (.heap x c) = .ok w' := by
  refine heap_panics (reaches_inv h) hl fun hr hb => C83_never M _ _ hr hb ?_
  cases c <;> exact hm

/-! ### A program -/

/-- `Hi!` -/
def hi : List Byte := [0x48#8, 0x69#8, 0x21#8]

/-- `let mut a = b"Hi!".to_vec();` with capacity 4. -/
def op1 : Op := .new 0 false hi 4
/-- `let b = hex_simd::encode_to_string(&a, AsciiCase::Lower);` -/
def op2 : Op := .heap 1 (.hexEncode (some .avx2) .lower ⟨⟨0, 0⟩, 3⟩ .string)
/-- `hex_simd::decode_append(&b, &mut a)` -/
def op3 : Op := .heap 0 (.hexDecodeAppend 0 (some .avx2) ⟨⟨1, 0⟩, 6⟩ ⟨0, 3, 4⟩)

theorem sender_max : 100 ≤ sender.P.isizeMax := by decide

theorem at1 : ∃ w, Reaches sender w ∧ w.vars 0 = some (.vec ⟨0, 3, 4⟩) ∧ (∀ y, y ≠ 0 → w.vars y = none) ∧ w.Contains (.vec ⟨0, 3, 4⟩) hi := by
  have hm := sender_max
  obtain ⟨o, s', h1, rfl, h2⟩ := new_value (P := sender.P) World.start 0 false (bs := hi) (cap := 4) (by decide)
  exact ⟨_, .step (op := op1) .start ⟨rfl, by decide, by omega, nofun⟩ h1, rfl, fun y hy => if_neg hy, h2 _⟩

theorem at2 : ∃ w, Reaches sender w ∧ w.vars 0 = some (.vec ⟨0, 3, 4⟩) ∧ w.Contains (.vec ⟨0, 3, 4⟩) hi ∧ (∀ y, 1 < y → w.vars y = none) ∧
    ∃ s, w.vars 1 = some (.string s) ∧ w.Contains (.string s) (hexEncode false hi) := by
  obtain ⟨w, h, h0, hn, hc⟩ := at1
  have hm := sender_max
  have hl : Legal sender w op2 := ⟨runs_hex_encode, ⟨_, h0, by decide⟩, hn 1 (by decide)⟩
  obtain ⟨w', he⟩ := C89_goes_on sender h hl (by show 0 + 2 * 3 + 6 + 0 ≤ _; omega)
  have hp : place w.st ⟨w.tag 0, 0⟩ = place w.st (ownerOf (.vec ⟨0, 3, 4⟩)).1 := by rw [tag_eq h0]; rfl
  rcases (heap_value (reaches_inv h) hl he (xs := hi) rfl (by show Reads _ (place w.st ⟨w.tag 0, 0⟩) _; rw [hp]; exact hc.2)).1 rfl with ⟨h1, -⟩ | ⟨ys, o, h1, h2, h3, h4⟩
  · cases h1
  · refine ⟨w', .step h hl he, by rw [h2]; exact h0, ⟨hc.1, (C89_others sender h hl he 0 _ nofun h0).2 _ hc.2⟩, fun y hy => ?_, ?_⟩
    · rw [h2]; show (if y = 1 then _ else w.vars y) = none
      rw [if_neg (by omega)]; exact hn y (by omega)
    · cases h1
      cases o with
      | string s => exact ⟨s, by rw [h2]; rfl, h4⟩
      | _ => exact h3.elim

/-- The program gets to the end of `op3`; variable `a` is then `Hi!Hi!`. -/
theorem at3 : ∃ w o, Reaches sender w ∧ w.vars 0 = some o ∧ w.Contains o (hi ++ hi) ∧ (∃ s, w.vars 1 = some (.string s)) ∧ ∀ y, 1 < y → w.vars y = none := by
  obtain ⟨w, h, h0, hc0, hn, s, hs, hc⟩ := at2
  have hm := sender_max
  have hlen : s.len = 6 := hc.1.symm
  have hl : Legal sender w op3 := ⟨runs_hex_decode, ⟨_, hs, by show 0 + 6 ≤ s.len; omega⟩, rfl, by decide, 0, .inl h0⟩
  obtain ⟨w', he⟩ := C89_goes_on sender h hl (by show 3 + 2 * 6 + 6 + 0 ≤ _; omega)
  have hst : (ownerOf (.string s)).1.off = 0 := rfl
  have hp : place w.st ⟨w.tag 1, 0⟩ = place w.st (ownerOf (.string s)).1 := by rw [tag_eq hs]; rfl
  obtain ⟨res, o, o', h1, h2, h3, -, h4⟩ := (heap_value (reaches_inv h) hl he (xs := hexEncode false hi) rfl (by show Reads _ (place w.st ⟨w.tag 1, 0⟩) _; rw [hp]; exact hc.2)).2 nofun
  rw [h0] at h2; cases h2
  refine ⟨w', o', .step h hl he, by rw [h3]; rfl, ?_, ⟨s, by rw [h3]; exact hs⟩, fun y hy => ?_⟩
  · have h4 := h4 hi hc0
    cases res with
    | none => exact absurd ⟨hi, by unfold IsHexOf; decide⟩ h1
    | some ys => rwa [show ys = hi from Hex.isHexOf_unique h1 (by unfold IsHexOf; decide)] at h4
  · rw [h3]; show (if y = 0 then _ else w.vars y) = none
    rw [if_neg (by omega)]; exact hn y hy

/-- After the ends of the scopes nothing is left. -/
example : ∃ w, Reaches sender w ∧ 0 < w.st.mem.nbuf ∧ ∀ b, b < w.st.mem.nbuf → Freed w.st b := by
  obtain ⟨w, o, h, h0, -, ⟨s, hs⟩, hn⟩ := at3
  have drop : ∀ {w : World} {x : Nat} {o : Owned}, Reaches sender w → w.vars x = some o → ∃ s', Reaches sender ⟨w.set x none, s'⟩ ∧ s'.mem.nbuf = w.st.mem.nbuf := fun {w x o} h hx => by
    have hl : Legal sender w (.drop x) := ⟨o, hx⟩
    have e : exec sender.P w (.drop x) = w.after (dropOwned o w.st) fun _ => w.set x none := by
      show (match w.vars x with | some o => w.after (dropOwned o w.st) fun _ => w.set x none | none => .ub) = _
      rw [hx]
    have h1 := drop_sim (E := fun _ => False) (drop_eq o) ((reaches_inv h).valid x o hx).owns
    unfold Sim at h1
    split at h1
    · rename_i s' _ m e1 e2
      cases e2
      rw [e1] at e
      exact ⟨s', .step h hl e, by rw [h1.1]⟩
    all_goals rename_i e' ; try cases e'
    all_goals exact h1.elim
  obtain ⟨s1, h1, e1⟩ := drop h h0
  obtain ⟨s2, h2, e2⟩ := drop h1 (x := 1) (o := .string s) hs
  have hlt := ((reaches_inv h).valid 0 o h0).owns.exists_
  refine ⟨_, h2, by show 0 < s2.mem.nbuf; rw [e2]; show 0 < s1.mem.nbuf; omega, fun b hb => C89_no_leak sender h2 hb fun x o hx => ?_⟩
  have : ∀ x, (World.set ⟨w.set 0 none, s1⟩ 1 none) x = none := fun x => by
    show (if x = 1 then none else if x = 0 then none else w.vars x) = none
    split
    · rfl
    · split
      · rfl
      · exact hn x (by omega)
  exact absurd ((this x).symm.trans hx) nofun

/-- Steps that safe Rust does not accept have undefined behaviour in the model: reading a dropped variable, and dropping twice. -/
example : (∃ w, exec sender.P .start op1 = .ok w ∧ (∃ w', exec sender.P w (.drop 0) = .ok w' ∧ exec sender.P w' (.read 0 0 1) = .ub ∧ exec sender.P w' (.drop 0) = .ub) ∧
    exec sender.P w (.read 0 2 2) = .ub) := by
  exact ⟨_, rfl, ⟨_, rfl, rfl, rfl⟩, rfl⟩

end Simd
