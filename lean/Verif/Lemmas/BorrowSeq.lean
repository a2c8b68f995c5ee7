import Verif.Lemmas.BorrowOps
/-
Reading and writing through the same tag in turn.
-/
namespace Simd.Borrow
open Spec

namespace Stack

/-- Who may write may read. -/
theorem read_of_write {t : Nat} {st : Stack} (h : (st.write t).isSome) : (st.read t).isSome := by
  induction st with
  | nil => cases h
  | cons it st ih =>
    rw [Stack.read]
    split
    · rfl
    · rename_i hn
      rw [Stack.write, if_neg (fun hc => hn ⟨hc.1, by rcases hc.2 with e | e <;> rw [e] <;> nofun⟩)] at h
      cases hw : Stack.write t st with
      | none => rw [hw] at h; cases h
      | some st' =>
        rw [hw] at h ih
        have ih := ih rfl
        split
        · rename_i hu
          rw [hu] at h
          dsimp only at h
          rw [if_neg (by simp)] at h
          split at h
          · cases h
          · rename_i hp; rw [if_neg hp]; simpa using ih
        · simpa using ih

theorem read_above {t : Nat} {new r : Stack} (hn : ∀ it ∈ new, it.prot = none) (h : (Stack.read t r).isSome) : (Stack.read t (new ++ r)).isSome := by
  induction new with
  | nil => exact h
  | cons it new ih =>
    have ih := ih fun it hi => hn it (List.mem_cons_of_mem _ hi)
    rw [List.cons_append, Stack.read, hn it List.mem_cons_self]
    split
    · rfl
    · split
      · simpa using ih
      · simpa using ih

theorem write_length {t : Nat} {st w : Stack} (h : st.write t = some w) : w.length ≤ st.length := by
  obtain ⟨a, rfl⟩ := write_suffix h
  simp

/-- A read through the tag of the raw pointer on top changes nothing. -/
theorem read_raw {t : Nat} {st r : Stack} (h : st.write t = some st) (h' : st.head?.map Item.perm = some .sharedRW) (hr : st.read t = some r) : r = st := by
  induction st generalizing r with
  | nil => cases h
  | cons it st ih =>
    have hp : it.perm = .sharedRW := by simpa using h'
    rw [Stack.read] at hr
    split at hr
    · exact (Option.some.inj hr).symm
    · rename_i hn
      rw [hp, if_neg (by nofun)] at hr
      rw [Stack.write, if_neg (fun hc => hn ⟨hc.1, by rw [hp]; nofun⟩)] at h
      cases hw : Stack.write t st with
      | none => rw [hw] at h; cases h
      | some st' =>
        have hl := write_length hw
        rw [hw] at h
        dsimp only at h
        split at h
        · rename_i hc
          obtain ⟨-, hc, rfl⟩ := hc
          cases hr' : Stack.read t st' with
          | none => rw [hr'] at hr; cases hr
          | some r' => rw [hr'] at hr; rw [← Option.some.inj hr, ih hw hc hr']
        · split at h
          · cases h
          · rw [Option.some.inj h] at hl; simp at hl

/-- A read does not take away the right to write through the same tag. -/
theorem write_of_read {t : Nat} {st r : Stack} (h : (st.write t).isSome) (hr : st.read t = some r) : (Stack.write t r).isSome := by
  induction st generalizing r with
  | nil => cases h
  | cons it st ih =>
    rw [Stack.read] at hr
    split at hr
    · rw [← Option.some.inj hr]; exact h
    · rename_i hn
      rw [Stack.write, if_neg (fun hc => hn ⟨hc.1, by rcases hc.2 with e | e <;> rw [e] <;> nofun⟩)] at h
      cases hw : Stack.write t st with
      | none => rw [hw] at h; cases h
      | some st' =>
        rw [hw] at h ih
        dsimp only at h
        split at hr
        · rename_i hu
          split at hr
          · cases hr
          · rename_i hp
            cases hr' : Stack.read t st with
            | none => rw [hr'] at hr; cases hr
            | some r' =>
              rw [hr'] at hr
              rw [← Option.some.inj hr, Stack.write, if_neg (by simp)]
              obtain ⟨w, hw'⟩ := Option.isSome_iff_exists.1 (ih rfl hr')
              rw [hw']
              dsimp only
              rw [if_neg (by simp), if_neg hp]
              rfl
        · cases hr' : Stack.read t st with
          | none => rw [hr'] at hr; cases hr
          | some r' =>
            rw [hr'] at hr
            rw [← Option.some.inj hr, Stack.write, if_neg (fun hc => hn ⟨hc.1, by rcases hc.2 with e | e <;> rw [e] <;> nofun⟩)]
            obtain ⟨w, hw'⟩ := Option.isSome_iff_exists.1 (ih rfl hr')
            rw [hw']
            dsimp only
            split
            · rfl
            · rename_i hc
              split
              · rename_i hp
                rw [if_pos hp] at h
                split at h
                · rename_i hc'
                  obtain ⟨h1, h2, rfl⟩ := hc'
                  have := read_raw hw h2 hr'
                  subst this
                  rw [hw] at hw'
                  cases hw'
                  exact absurd ⟨h1, h2, rfl⟩ hc
                · cases h
              · rfl

theorem write_above {t : Nat} {new w : Stack} (hn : ∀ it ∈ new, it.prot = none) (h : (Stack.write t w).isSome) : (Stack.write t (new ++ w)).isSome := by
  induction new with
  | nil => exact h
  | cons it new ih =>
    have ih := ih fun it hi => hn it (List.mem_cons_of_mem _ hi)
    rw [List.cons_append, Stack.write, hn it List.mem_cons_self]
    split
    · rfl
    · obtain ⟨w', hw'⟩ := Option.isSome_iff_exists.1 ih
      rw [hw']
      dsimp only
      split <;> rfl

end Stack

/-- What could be read through a tag can still be read through it if everything went through this tag. -/
theorem _root_.Simd.Spec.AfterCall.readable' {s s1 : State} {G : Nat → Nat → Loan} (h : AfterCall s s1 G) {p : Ptr} {n : Nat} (hp : p.buf < s.next)
    (hG : ∀ b i, In (place s p) n b i → G b i = .none ∨ G b i = .shared p.buf ∨ G b i = .excl p.buf) (hr : Readable s p n) : Readable s1 p n := by
  intro b i hi
  rw [place, h.home _ hp] at hi
  have hr := hr b i hi
  rcases h.stack b i with e | e
  · rw [e]; exact hr
  · rcases hG b i hi with hg | hg | hg
    · rw [hg] at e; exact e.elim
    · rw [hg] at e
      obtain ⟨r, new, e1, e2, e3⟩ := e
      rw [e2, Stack.read_append (fun it hi => (e3 it hi).2) (Stack.read_idem e1)]; rfl
    · rw [hg] at e
      obtain ⟨w, new, e1, e2, e3⟩ := e
      rw [e2]
      exact Stack.read_above (fun it hi => (e3 it hi).2.2) (Stack.read_of_write (by rw [Stack.write_idem e1]; rfl))

/-- What could be written through a tag can still be written through it if everything went through this tag. -/
theorem _root_.Simd.Spec.AfterCall.mutable' {s s1 : State} {G : Nat → Nat → Loan} (h : AfterCall s s1 G) {p : Ptr} {n : Nat} (hp : p.buf < s.next)
    (hG : ∀ b i, In (place s p) n b i → G b i = .none ∨ G b i = .shared p.buf ∨ G b i = .excl p.buf) (hr : Mutable s p n) : Mutable s1 p n := by
  intro b i hi
  rw [place, h.home _ hp] at hi
  have hr := hr b i hi
  rcases h.stack b i with e | e
  · rw [e]; exact hr
  · rcases hG b i hi with hg | hg | hg
    · rw [hg] at e; exact e.elim
    · rw [hg] at e
      obtain ⟨r, new, e1, e2, e3⟩ := e
      rw [e2]
      exact Stack.write_above (fun it hi => (e3 it hi).1.2.2) (Stack.write_of_read hr e1)
    · rw [hg] at e
      obtain ⟨w, new, e1, e2, e3⟩ := e
      rw [e2]
      exact Stack.write_above (fun it hi => (e3 it hi).2.2) (by rw [Stack.write_idem e1]; rfl)

end Simd.Borrow
