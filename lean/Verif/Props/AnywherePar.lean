import Verif.Props.Parallel
import Verif.Props.Anywhere
/-
C62: `par_encode` on slices anywhere in memory (crates/base64-simd/src/parallel.rs:11-52). The source and the destination may
be parts of one allocation, as long as they do not overlap: the tasks then read and write the same allocation at the same time.
-/
namespace Simd

theorem Spec.Wrote.eq {m m' : Mem} {q : Ptr} {ys : List Byte} (h : Spec.Wrote m m' q ys) : m' = m.write q ys := by
  obtain ⟨h1, h2, h3, h4⟩ := h
  obtain ⟨g1, g2, g3, g4⟩ := wrote_write m q ys
  have hc : m'.cell = (m.write q ys).cell := by
    funext b o
    by_cases hb : ∃ i, i < ys.length ∧ b = q.buf ∧ o = q.off + i
    · obtain ⟨i, hi, rfl, rfl⟩ := hb
      rw [h3 i hi, g3 i hi]
    · have hb' : ∀ i, i < ys.length → ¬ (b = q.buf ∧ o = q.off + i) := fun i hi h => hb ⟨i, hi, h⟩
      rw [h4 b o hb', g4 b o hb']
  cases m'
  simp only at h1 h2 hc
  subst h1 h2 hc
  rfl

namespace Base64

theorem apart_text (config : Config) {p q : Ptr} {xs : List Byte} {d : Nat} (hd : Spec.NoOverlap p xs.length q d)
    (h : (text config xs).length ≤ d) : Apart p q xs.length (text config xs).length := by
  rcases (hd.mono (Nat.le_refl _) h).apart with h | h | h
  · rw [text_length, h]
    have : encLen config.extra.padding 0 = 0 := by cases config.extra.padding <;> rfl
    rw [this]
    unfold Apart; omega
  · rw [h]
    have : xs.length = 0 := by
      rw [text_length] at h
      unfold encLen at h
      split at h <;> [skip; split at h] <;> omega
    unfold Apart; omega
  · exact h

/-- C62: wherever the two slices are, for every number of threads and every schedule, the text is written and nothing else in
memory changes. There is exactly one outcome: no schedule has a data race, undefined behaviour or a panic. -/
theorem C62_par_encode (P : Plat) {i : Option Isa} (hi : i ≠ some .sse2) {config url pad} (hv : IsVariant config url pad)
    (m : Mem) (p q : Ptr) (xs : List Byte) (d k : Nat) (hr : Spec.Reads m p xs) (hw : Spec.Writable m q d)
    (hd : Spec.NoOverlap p xs.length q d) (hk : k * 4096 ≤ P.usizeMax) (hx : xs.length ≤ P.isizeMax)
    (h : (Spec.base64 url pad xs).length ≤ d) :
    ∃ m', Spec.Wrote m m' q (Spec.base64 url pad xs) ∧ ∀ o,
      Fork.Outcome (par_encode P k i config ⟨p, xs.length⟩ ⟨q, d⟩) m o ↔ o = .ok ⟨q, (Spec.base64 url pad xs).length⟩ m' := by
  obtain ⟨m', he, hm⟩ := C59_encode P hi hv m p q xs d hr hw hd hx h
  have hm' := hm.eq
  subst hm'
  refine ⟨_, hm, ?_⟩
  rw [← hv.text] at h he ⊢
  exact par_outcome P hi config k hr.has (by unfold Spec.Writable at hw; unfold CanWrite; omega) (apart_text config hd h) hk hx h he

/-- C62: every execution of the tasks ends. -/
theorem C62_terminates (P : Plat) {i : Option Isa} (hi : i ≠ some .sse2) {config url pad} (hv : IsVariant config url pad)
    (m : Mem) (p q : Ptr) (xs : List Byte) (d k : Nat) (hr : Spec.Reads m p xs) (hw : Spec.Writable m q d)
    (hd : Spec.NoOverlap p xs.length q d) (hx : xs.length ≤ P.isizeMax) (h : (Spec.base64 url pad xs).length ≤ d)
    {ts s m'} (hf : (par_encode P k i config ⟨p, xs.length⟩ ⟨q, d⟩).run m = .ok (.par ts s) m') :
    ∃ N, ∀ n c, Pool.Steps n (.run ts m') c → n ≤ N ∧ ((∃ c', Pool.Step c c') ∨ ∃ m'', c.Done m'') := by
  rw [← hv.text] at h
  exact par_terminates P hi config k hr.has (by unfold Spec.Writable at hw; unfold CanWrite; omega) (apart_text config hd h) hx h hf

instance (p n : Nat) : Decidable (Splits p n) := by unfold Splits; infer_instance

/-- C62: with a destination that is too short nothing is touched: an error if the work is not split, a panic if it is
(the documented behaviour is the error; see C16). -/
theorem C62_short (P : Plat) {i : Option Isa} (hi : i ≠ some .sse2) {config url pad} (hv : IsVariant config url pad)
    (m : Mem) (p q : Ptr) (xs : List Byte) (d k : Nat) (hk : k * 4096 ≤ P.usizeMax) (hx : xs.length ≤ P.isizeMax)
    (h : d < (Spec.base64 url pad xs).length) (o : Out Slice) :
    Fork.Outcome (par_encode P k i config ⟨p, xs.length⟩ ⟨q, d⟩) m o ↔ o = if Splits k xs.length then .panic else .err m := by
  have key : (par_encode P k i config ⟨p, xs.length⟩ ⟨q, d⟩).run m = if Splits k xs.length then .panic else .err m := by
    by_cases hs : Splits k xs.length
    · rw [if_pos hs]
      obtain ⟨h1, h2, h3⟩ := hs
      have hu := isizeMax_le P
      rw [← hv.text, text_length] at h
      have hfit := encLen_fits P config.extra.padding xs.length (by omega)
      unfold par_encode
      have e1 : P.mulU k 4096 = some (k * 4096) := if_pos hk
      simp only [e1, liftO, prog_pure_bind]
      have hcond : ¬ (xs.length < k * 4096 ∨ k < 2 ∨ xs.length / 3 < k) := by omega
      refine (congrArg (Prog.run · _) (if_neg hcond)).trans ?_
      rw [encoded_length_unchecked_eq P _ _ hfit]
      simp only [prog_pure_bind]
      exact run_assert_false (decide_eq_false (by omega))
    · rw [if_neg hs, par_encode_seq P i config ⟨p, xs.length⟩ ⟨q, d⟩ k hk hs m, C59_encode_short P hi hv m p q xs d hx h]
  by_cases hs : Splits k xs.length
  · rw [if_pos hs] at key ⊢
    constructor
    · intro ho
      cases ho with
      | seq h' => rw [key] at h'; cases h'
      | err h' => rw [key] at h'; cases h'
      | panic h' => rfl
      | ub h' => rw [key] at h'; cases h'
      | par h' hst hd => rw [key] at h'; cases h'
      | bad h' hst => rw [key] at h'; cases h'
    · rintro rfl
      exact .panic key
  · rw [if_neg hs] at key ⊢
    constructor
    · intro ho
      cases ho with
      | seq h' => rw [key] at h'; cases h'
      | err h' => rw [key] at h'; cases h'; rfl
      | panic h' => rw [key] at h'; cases h'
      | ub h' => rw [key] at h'; cases h'
      | par h' hst hd => rw [key] at h'; cases h'
      | bad h' hst => rw [key] at h'; cases h'
    · rintro rfl
      exact .err key

/-- The hypotheses are met with both slices in one allocation: the source, then a gap, then the destination. With 9000 bytes
and two threads the work is split. -/
example (n g d : Nat) : let m := Mem.ofBufs [(List.replicate n (7 : Byte)).map some ++ List.replicate (g + d) none]
    Spec.Reads m ⟨0, 0⟩ (List.replicate n 7) ∧ Spec.Writable m ⟨0, n + g⟩ d ∧ Spec.NoOverlap ⟨0, 0⟩ n ⟨0, n + g⟩ d := by
  refine ⟨⟨?_, fun i h => ?_⟩, ?_, fun a b h1 h2 => ?_⟩
  · simp [Mem.ofBufs]
  · simp only [List.length_replicate] at h
    simp [Mem.ofBufs, List.getElem?_append, h]
  · simp [Spec.Writable, Mem.ofBufs]; omega
  · simp only
    omega

example : Splits 2 9000 := by decide

end Base64
end Simd
