import Verif.Lemmas.TreeJobs
import Verif.Lemmas.TreeKern
import Verif.Props.AnywherePar
/-
The parallel section of `par_encode` with borrow trees, seen from outside.
-/
namespace Simd.Tree
open Spec Simd.Base64
open Borrow (noOverlap_pt)

variable {s s' : State} {P Q sc dc : Ptr} {i : Option Isa} {config : Simd.Base64.Config} {xs : List Byte}

/-- How the section's bytes are lent, and what is to be written. -/
noncomputable abbrev sectionGoal (config : Simd.Base64.Config) (P Q : Ptr) (xs : List Byte) (s : State) (sc dc : Ptr) : Goal where
  start := s
  loan := G2 P xs.length sc.buf Q (text config xs).length dc.buf
  target := (s.mem.write Q (text config xs)).cell

theorem G2_cases {P Q : Ptr} {n d t u : Nat} (b i : Nat) : In P n b i ∧ G2 P n t Q d u b i = .shared t ∨ (¬ In P n b i ∧ In Q d b i) ∧ G2 P n t Q d u b i = .excl u ∨
    (¬ In P n b i ∧ ¬ In Q d b i) ∧ G2 P n t Q d u b i = .none := by
  unfold G2
  by_cases h : In P n b i
  · exact .inl ⟨h, over_in h⟩
  · by_cases h' : In Q d b i
    · exact .inr (.inl ⟨⟨h, h'⟩, (over_out h).trans (over_in h')⟩)
    · exact .inr (.inr ⟨⟨h, h'⟩, (over_out h).trans (over_out h')⟩)

theorem section_ok (hs : Sound s) (eP : place s sc = P) (eQ : place s dc = Q) (hr : Readable s sc xs.length) (hm : Mutable s dc (text config xs).length) :
    (sectionGoal config P Q xs s sc dc).Ok where
  sound := hs
  has := fun b i t h => by
    rcases G2_cases (P := P) (Q := Q) (n := xs.length) (d := (text config xs).length) (t := sc.buf) (u := dc.buf) b i with ⟨hi, e⟩ | ⟨hi, e⟩ | ⟨-, e⟩
    · replace h : Of t (G2 P xs.length sc.buf Q (text config xs).length dc.buf b i) := h
      rw [e] at h
      rcases h with h | h <;> cases h
      exact ⟨hr.1, by have := hi.1; rw [← eP] at this; exact this.symm⟩
    · replace h : Of t (G2 P xs.length sc.buf Q (text config xs).length dc.buf b i) := h
      rw [e] at h
      rcases h with h | h <;> cases h
      exact ⟨hm.1, by have := hi.2.1; rw [← eQ] at this; exact this.symm⟩
    · replace h : Of t (G2 P xs.length sc.buf Q (text config xs).length dc.buf b i) := h
      rw [e] at h
      rcases h with h | h <;> cases h
  read := fun b i t h => by
    rcases G2_cases (P := P) (Q := Q) (n := xs.length) (d := (text config xs).length) (t := sc.buf) (u := dc.buf) b i with ⟨hi, e⟩ | ⟨hi, e⟩ | ⟨-, e⟩ <;> cases e.symm.trans h
    exact hr.2 b i (eP ▸ hi)
  write := fun b i t h => by
    rcases G2_cases (P := P) (Q := Q) (n := xs.length) (d := (text config xs).length) (t := sc.buf) (u := dc.buf) b i with ⟨hi, e⟩ | ⟨hi, e⟩ | ⟨-, e⟩ <;> cases e.symm.trans h
    exact hm.2 b i (eQ ▸ hi.2)

theorem section_mine (ho : NoOverlap P xs.length Q (text config xs).length) (b i : Nat) (h : In Q (text config xs).length b i) :
    (sectionGoal config P Q xs s sc dc).loan b i = .excl dc.buf := (over_out fun h' => noOverlap_pt ho h' h).trans (over_in h)

/-- The jobs keep to what they may do. -/
theorem section_keeps (hs : Sound s) (hi : i ≠ some .sse2) (eP : place s sc = P) (eQ : place s dc = Q) (hr : Readable s sc xs.length)
    (hm : Mutable s dc (text config xs).length) (ho : NoOverlap P xs.length Q (text config xs).length) (hx : Reads s.mem P xs) (hw : Writable s.mem Q (text config xs).length)
    {c n : Nat} (hn : xs.length ≤ n * (c * 3)) :
    Keeps (sectionGoal config P Q xs s sc dc) (In Q (text config xs).length) (Act.job i config (c * 3) (c * 4) n ⟨sc, xs.length⟩ ⟨dc, (text config xs).length⟩) s.enter := by
  have hok := section_ok hs eP eQ hr hm
  refine keeps_job (P := P) hi ⟨hx.1, hw, hx.2, fun j hj => ?_⟩ hn ⟨hok, fun b i h => ⟨_, section_mine ho b i h⟩, Good.enter hok⟩
    ⟨hr.1, eP, fun b i h => ⟨sc.buf, fun _ _ => rfl, fun h' => absurd (show sc.buf < s.next from hr.1) (Nat.not_lt.2 h'), .inl ⟨over_in h, rfl⟩⟩⟩
    ⟨hm.1, eQ, fun b i h => ⟨dc.buf, fun _ _ => rfl, fun h' => absurd (show dc.buf < s.next from hm.1) (Nat.not_lt.2 h'), .inr ⟨section_mine ho b i h, rfl, fun u hu => ?_⟩⟩⟩
  · rw [List.getElem?_eq_getElem hj]; exact (wrote_write s.mem Q _).2.2.1 j hj
  · exact absurd (show u < s.next from hu.2.1) (Nat.not_lt.2 hu.1)

/-- The section as a whole: it ends well, has written the text, and has used the source and the destination as lent. -/
theorem section_after (hs : Sound s) (hi : i ≠ some .sse2) (eP : place s sc = P) (eQ : place s dc = Q) (hr : Readable s sc xs.length)
    (hm : Mutable s dc (text config xs).length) (ho : NoOverlap P xs.length Q (text config xs).length) (hx : Reads s.mem P xs) (hw : Writable s.mem Q (text config xs).length)
    {c n : Nat} (hn : xs.length ≤ n * (c * 3)) {t : Thread} (h : Thread.Steps (.run (Act.job i config (c * 3) (c * 4) n ⟨sc, xs.length⟩ ⟨dc, (text config xs).length⟩)) s.enter t s') :
    ¬ t.Step s' none ∧ (t = .run .done → ∃ s3, s'.ret = some s3 ∧ s3.mem = s.mem.write Q (text config xs) ∧ AfterCall s s3 (G2 P xs.length sc.buf Q (text config xs).length dc.buf)) := by
  have hok := section_ok (config := config) (P := P) (Q := Q) (xs := xs) hs eP eQ hr hm
  have hR : ∀ b i, In Q (text config xs).length b i → ¬ (sectionGoal config P Q xs s sc dc).Shared b i := fun b i h ⟨t, h'⟩ => by
    cases (section_mine ho b i h).symm.trans h'
  obtain ⟨hM, ha⟩ := (AllSafe.run (section_keeps hs hi eP eQ hr hm ho hx hw hn)).steps (Good.enter hok) hR h
  refine ⟨fun hb => ?_, ?_⟩
  · obtain ⟨_, _, e, -⟩ := ha.step hM.good hR hb
    cases e
  rintro rfl
  have hpost : ∀ b i, In Q (text config xs).length b i → (sectionGoal config P Q xs s sc dc).Post s' b i := by
    cases ha with | run ha =>
    cases ha with
    | done h => exact h
    | step f ha => cases ha
  obtain ⟨s3, e1, e2, e3⟩ := Good.ret hok hM.good
  refine ⟨s3, e1, e3.trans ?_, e2⟩
  have hc : s'.mem.cell = (s.mem.write Q (text config xs)).cell := by
    funext b j
    by_cases hb : In Q (text config xs).length b j
    · exact hpost b j hb
    · rw [hM.cell b j hb]
      refine ((wrote_write s.mem Q (text config xs)).2.2.2 b j fun k hk h => hb ?_).symm
      exact ⟨h.1, by have := h.2; omega, by have := h.2; omega⟩
  have h1 : s'.mem.size = s.mem.size := hM.good.size
  have h2 : s'.mem.nbuf = s.mem.nbuf := hM.good.nbuf
  revert hc h1 h2
  cases s'.mem
  intro hc h1 h2
  dsimp only at hc h1 h2
  subst hc h1 h2
  rfl

end Simd.Tree
