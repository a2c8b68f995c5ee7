import Verif.Lemmas.LendPlain
import Verif.Props.Lend
/-
C99: programs with references see the same as over plain memory, and the same in every execution.
-/
namespace Simd
open Spec Borrow Lend
open Client (Seen)

namespace Lend

theorem reaches_of_run {M : Machine} {p : Program} {h : List Seen} {w : World} (hr : Run M p h w) : Reaches M w := by
  induction hr with
  | start => exact .start
  | step _ _ hl hs ih => exact ih.step hl (exec_of_shows hs)

/-- Every world that can be reached is reached by a program. -/
theorem run_of_reaches {M : Machine} {w : World} (h : Reaches M w) : ∃ (ops : List Op) (h : List Seen), h.length = ops.length ∧ ∀ more, Run M (fun h => (ops ++ more)[h.length]?) h w := by
  induction h with
  | start => exact ⟨[], [], rfl, fun _ => .start⟩
  | @step w w' op _ hl he ih =>
    obtain ⟨ops, h, hh, ih⟩ := ih
    obtain ⟨v, hv⟩ := shows_of_exec he
    refine ⟨ops ++ [op], h ++ [v], by rw [List.length_append, List.length_append, hh]; rfl, fun more => ?_⟩
    have e : ops ++ [op] ++ more = ops ++ (op :: more) := by rw [List.append_assoc]; rfl
    rw [e]
    exact (ih (op :: more)).step (by rw [hh, List.getElem?_append_right (Nat.le_refl _), Nat.sub_self]; rfl) hl hv

theorem run_nil {M : Machine} {p : Program} {w : World} (h : Run M p [] w) : w = .start := by
  generalize e : ([] : List Seen) = l at h
  cases h with
  | start => rfl
  | step => exact absurd e (by simp)

theorem run_snoc {M : Machine} {p : Program} {h : List Seen} {v : Seen} {w' : World} (hr : Run M p (h ++ [v]) w') :
    ∃ w op, Run M p h w ∧ p h = some op ∧ Legal M w op ∧ Shows M.P w op v (.ok w') := by
  generalize e : h ++ [v] = l at hr
  cases hr with
  | start => exact absurd e (by simp)
  | step h1 h2 h3 h4 =>
    obtain ⟨e1, e2⟩ := List.append_inj' e rfl
    subst e1
    injection e2 with e2
    subst e2
    exact ⟨_, _, h1, h2, h3, h4⟩

end Lend

/-- C99, a step: what a step that safe Rust allows does, and what is seen of it, is what it does, and what is seen of it, over plain memory, with the functions without references. -/
theorem C99_step (M : Machine) {w : World} (hr : Reaches M w) {op : Lend.Op} (hl : Lend.Legal M w op) (v : Seen) (e : Plain.End) :
    (∃ e', Shows M.P w op v e' ∧ e'.plain = e) ↔ Plain.Exec M.P w.plain op v e := by
  have hI := reaches_rinv hr
  refine ⟨fun ⟨e', h, he⟩ => he ▸ shows_plain hI hl h, fun h => ?_⟩
  obtain ⟨e', he⟩ := exec_exists hI hl
  obtain ⟨v', hv⟩ := shows_of_exec he
  obtain ⟨rfl, rfl⟩ := plain_unique hI hl (shows_plain hI hl hv) h
  exact ⟨e', hv, rfl⟩

/-- C99, programs: whatever a program gets to know in an execution, it gets to know over plain memory, and has the same variables, references and memory. -/
theorem C99_refines (M : Machine) {p : Program} {h : List Seen} {w : World} (hr : Run M p h w) : Plain.Run M.P p h w.plain := by
  induction hr with
  | start => exact .start
  | step h1 h2 h3 h4 ih => exact ih.step h2 ((C99_step M (reaches_of_run h1) h3 _ _).1 ⟨_, h4, rfl⟩)

/-- C99, two executions: a program gets to know the same after as many steps, whatever the threads of `par_encode` do when, and has the same variables, references and memory. -/
theorem C99_deterministic (M : Machine) {p : Program} {h h' : List Seen} {w w' : World} (hr : Run M p h w) (hr' : Run M p h' w') (hl : h.length = h'.length) : h = h' ∧ w.plain = w'.plain := by
  induction hr generalizing h' w' with
  | start =>
    obtain rfl := List.length_eq_zero_iff.1 hl.symm
    rw [run_nil hr']
    exact ⟨rfl, rfl⟩
  | @step h w w1 op v h1 h2 h3 h4 ih =>
    rcases List.eq_nil_or_concat h' with rfl | ⟨k, v', rfl⟩
    · rw [List.length_append] at hl; cases hl
    · rw [List.concat_eq_append] at hr' hl ⊢
      obtain ⟨w2, op', g1, g2, g3, g4⟩ := run_snoc hr'
      obtain ⟨rfl, e⟩ := ih g1 (by rw [List.length_append, List.length_append] at hl; exact Nat.succ.inj hl)
      rw [h2] at g2; cases g2
      have a := (C99_step M (reaches_of_run h1) h3 _ _).1 ⟨_, h4, rfl⟩
      have b := (C99_step M (reaches_of_run g1) g3 _ _).1 ⟨_, g4, rfl⟩
      rw [← e] at b
      obtain ⟨rfl, e2⟩ := plain_unique (reaches_rinv (reaches_of_run h1)) h3 a b
      injection e2 with e2
      exact ⟨rfl, e2⟩

/-- C99, panics: if an execution panics at a step, no execution gets past it. -/
theorem C99_panic (M : Machine) {p : Program} {h h' : List Seen} {w w' : World} {op : Lend.Op} {v : Seen} (hr : Run M p h w) (hp : p h = some op) (hl : Lend.Legal M w op) (hs : Shows M.P w op v .panic)
    (hr' : Run M p h' w') : h'.length ≤ h.length := by
  induction hr' with
  | start => exact Nat.zero_le _
  | @step h' w1 w2 op' v' h1 h2 h3 h4 ih =>
    rcases Nat.lt_or_ge h'.length h.length with hlt | hge
    · rw [List.length_append]; exact hlt
    · exfalso
      obtain ⟨rfl, e⟩ := C99_deterministic M hr h1 (Nat.le_antisymm hge ih)
      rw [hp] at h2; cases h2
      have a := (C99_step M (reaches_of_run hr) hl _ _).1 ⟨_, hs, rfl⟩
      have b := (C99_step M (reaches_of_run h1) h3 _ _).1 ⟨_, h4, rfl⟩
      rw [← e] at b
      exact nomatch (plain_unique (reaches_rinv (reaches_of_run hr)) hl a b).2

/-! ### Examples -/

namespace Lend

/-- A program that encodes with two threads from a reference it keeps: each execution of as many steps knows the same and ends with the same variables, references and memory. -/
example : ∃ p h w, Run sender p h w ∧ (∃ ρ, w.plain.refs 3 = some ρ ∧ ρ.len = 4) ∧ ∀ h' w', Run sender p h' w' → h.length = h'.length → h = h' ∧ w.plain = w'.plain := by
  obtain ⟨w, w', ρ3, h1, h2, h3, h4, h5, -⟩ := at_par
  obtain ⟨ops, h, hl, hr⟩ := run_of_reaches (h1.step h2 h3)
  refine ⟨_, h, w', hr [], ⟨_, plain_ref h4, h5⟩, fun h' v hr' hl' => C99_deterministic sender (hr []) hr' hl'⟩

/-- With too many threads it panics, and that in each execution: none gets further. -/
example : ∃ p h w op v, Run sender p h w ∧ p h = some op ∧ Lend.Legal sender w op ∧ Shows sender.P w op v .panic ∧ ∀ h' w', Run sender p h' w' → h'.length ≤ h.length := by
  obtain ⟨w, w', ρ3, h1, h2, -⟩ := at_par
  obtain ⟨ops, h, hl, hr⟩ := run_of_reaches h1
  let op : Lend.Op := .par (sender.P.usizeMax + 1) (some .avx2) Base64.STANDARD ⟨⟨2, 0⟩, 3⟩ ⟨⟨1, 0⟩, 4⟩ (some 3)
  have hop : Lend.Legal sender w op := h2
  have e1 : sender.P.mulU (sender.P.usizeMax + 1) 4096 = none := if_neg (by omega)
  obtain ⟨e', hs, he⟩ := (C99_step sender h1 hop _ _).2 (.par _ _ _ _ _ _ .panic ((Borrow.fork_panic (by unfold Simd.Base64.par_encode; rw [e1]; rfl) _).2 rfl))
  have he : e' = .panic := by cases e' <;> first | rfl | cases he
  subst he
  have hp : (ops ++ [op])[h.length]? = some op := by rw [hl, List.getElem?_append_right (Nat.le_refl _), Nat.sub_self]; rfl
  exact ⟨_, h, w, op, _, hr [op], hp, hop, hs, fun h' w' hr' => C99_panic sender (hr [op]) hp hop hs hr'⟩

end Lend

end Simd
