import Verif.Lemmas.BorrowJobs
import Verif.Lemmas.BorrowFrame
import Verif.Props.AnywherePar
/-
The parallel section of `par_encode` with borrow stacks, seen from outside.
-/
namespace Simd.Borrow
open Spec Simd.Base64

variable {s s' : State} {P Q sc dc : Ptr} {i : Option Isa} {config : Simd.Base64.Config} {xs : List Byte}

theorem release_made {f : Nat} {it : Item} (h : it.prot = none ∨ it.prot = some f) : Item.release f it = ⟨it.perm, it.tag, none⟩ := by
  obtain ⟨perm, tag, prot⟩ := it
  rcases h with h | h
  · cases h
    unfold Item.release; rw [if_neg nofun]
  · cases h
    exact release_prot

/-- The section's bytes and stacks. -/
abbrev sectionGoal (config : Simd.Base64.Config) (P Q : Ptr) (xs : List Byte) (s : State) : Goal where
  shared := In P xs.length
  size := s.mem.size
  source := s.mem.cell
  target := (s.mem.write Q (text config xs)).cell
  stack := s.stack
  next := s.next
  frame := s.frame + 1

/-- The jobs keep to what they may do. -/
theorem section_keeps (hi : i ≠ some .sse2) (hsc : sc.buf < s.next) (hdc : dc.buf < s.next) (eP : place s sc = P) (eQ : place s dc = Q) (hq : Quiet s sc xs.length)
    (ht : OnTop s .unique dc (text config xs).length) (ho : NoOverlap P xs.length Q (text config xs).length) (hx : Reads s.mem P xs) (hw : Writable s.mem Q (text config xs).length)
    {c n : Nat} (hn : xs.length ≤ n * (c * 3)) :
    Keeps (sectionGoal config P Q xs s) (In Q (text config xs).length) (Act.job i config (c * 3) (c * 4) n ⟨sc, xs.length⟩ ⟨dc, (text config xs).length⟩) s.enter := by
  refine keeps_job (P := P) hi ⟨hx.1, hw, fun j hj => ?_, fun j hj => ?_⟩ hn ⟨Nat.le_refl _, rfl, rfl, fun _ _ _ => rfl, fun b i h h' => noOverlap_pt ho h' h, fun b i _ => ⟨[], rfl, nofun⟩⟩
    ⟨hsc, eP, fun b i h => ⟨h, hq b i (eP ▸ h)⟩⟩ ⟨hdc, eQ, fun b i h => ⟨h, ?_⟩⟩
  · exact hx.2 j hj
  · rw [List.getElem?_eq_getElem hj]; exact (wrote_write s.mem Q _).2.2.1 j hj
  · obtain ⟨rest, e⟩ := ht b i (eQ ▸ h)
    exact ⟨_, rest, e, rfl, .inl rfl⟩

/-- The section as a whole: it ends well, has written the text, and has used the source and the destination as lent. -/
theorem section_after (hs : Sound s) (hi : i ≠ some .sse2) (hsc : sc.buf < s.next) (hdc : dc.buf < s.next) (eP : place s sc = P) (eQ : place s dc = Q) (hq : Quiet s sc xs.length)
    (ht : OnTop s .unique dc (text config xs).length) (ho : NoOverlap P xs.length Q (text config xs).length) (hx : Reads s.mem P xs) (hw : Writable s.mem Q (text config xs).length)
    {c n : Nat} (hn : xs.length ≤ n * (c * 3)) {t : Thread} (h : Thread.Steps (.run (Act.job i config (c * 3) (c * 4) n ⟨sc, xs.length⟩ ⟨dc, (text config xs).length⟩)) s.enter t s') :
    ¬ t.Step s' none ∧ (t = .run .done → s'.ret.mem = s.mem.write Q (text config xs) ∧ AfterCall s s'.ret (G2 P xs.length sc.buf Q (text config xs).length dc.buf)) := by
  have hR : ∀ b i, In Q (text config xs).length b i → ¬ (sectionGoal config P Q xs s).shared b i := fun b i h h' => noOverlap_pt ho h' h
  obtain ⟨hm, ha⟩ := (AllSafe.run (section_keeps hi hsc hdc eP eQ hq ht ho hx hw hn)).steps hR h
  refine ⟨fun hb => ?_, ?_⟩
  · obtain ⟨_, _, e, -⟩ := ha.step hR hb
    cases e
  rintro rfl
  have hf : s'.frame = s.frame + 1 := hm.frame
  have hpost : ∀ b i, In Q (text config xs).length b i → (sectionGoal config P Q xs s).Post s' b i := by
    cases ha with | run ha =>
    cases ha with
    | done h => exact h
    | step f ha => cases ha
  have hnew : ∀ {it : Item}, s.next ≤ it.tag → it.tag < s'.next → NewItem s s'.ret ⟨it.perm, it.tag, none⟩ := fun h1 h2 => ⟨h1, h2, rfl⟩
  refine ⟨?_, ⟨hm.next, by show s'.frame - 1 = s.frame; omega, fun t ht => hm.home t ht, fun b j => ?_⟩⟩
  · show s'.mem = _
    have hc : s'.mem.cell = (s.mem.write Q (text config xs)).cell := by
      funext b j
      by_cases hb : In Q (text config xs).length b j
      · exact (hpost b j hb).1
      · rw [hm.cell b j (.inl hb)]
        refine ((wrote_write s.mem Q (text config xs)).2.2.2 b j fun k hk h => hb ?_).symm
        exact ⟨h.1, by have := h.2; omega, by have := h.2; omega⟩
    have h1 := hm.size
    have h2 := hm.nbuf
    revert hc h1 h2
    cases s'.mem
    intro hc h1 h2
    dsimp only at hc h1 h2
    subst hc h1 h2
    rfl
  · have hold : (s.stack b j).map (Item.release (s.frame + 1)) = s.stack b j := release_old fun it hi g hg => by have := (hs b j it hi).2 g hg; omega
    show StackAfter s s'.ret _ _ ((s'.stack b j).map (Item.release s'.frame))
    rw [hf]
    by_cases hP : In P xs.length b j
    · unfold G2
      rw [over_in hP]
      obtain ⟨new, e, hn⟩ := hm.readers b j hP
      refine .inr ⟨_, new.map (Item.release (s.frame + 1)), hq b j (eP ▸ hP), ?_, fun it hi => ?_⟩
      · rw [e, List.map_append]; exact congrArg _ hold
      · obtain ⟨it, hit, rfl⟩ := List.mem_map.1 hi
        obtain ⟨a1, a2, a3, a4⟩ := hn it hit
        rw [release_made (f := s.frame + 1) a4]
        exact ⟨hnew a2 a3, a1⟩
    · by_cases hQ : In Q (text config xs).length b j
      · unfold G2
        rw [over_out hP, over_in hQ]
        obtain ⟨new, e, hn⟩ := (hpost b j hQ).2
        obtain ⟨rest, et⟩ := ht b j (eQ ▸ hQ)
        refine .inr ⟨s.stack b j, new.map (Item.release (s.frame + 1)), ?_, ?_, fun it hi => ?_⟩
        · rw [et]; exact Stack.write_top rfl (.inl rfl)
        · rw [e, List.map_append]; exact congrArg _ hold
        · obtain ⟨it, hit, rfl⟩ := List.mem_map.1 hi
          obtain ⟨a1, a2, a3⟩ := hn it hit
          rw [release_made (f := s.frame + 1) a3]
          exact hnew a1 a2
      · left
        rw [hm.stack b j hQ hP]; exact hold

end Simd.Borrow
