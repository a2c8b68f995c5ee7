import Verif.Lemmas.BorrowVec
import Verif.Lemmas.BorrowSeq
/-
The place of a reference in the borrow stack of a byte, and what happens to it when other references to the byte are used.
-/
namespace Simd.Borrow

/-- The reference with tag `t` has an item in the stack; everything above it is younger; and the owner, with tag `t0`, could write the byte if the item and all above it were gone. -/
def Has (perm : Perm) (t t0 : Nat) (st : Stack) : Prop :=
  ∃ above rest, st = above ++ ⟨perm, t, none⟩ :: rest ∧ (∀ it ∈ above, t < it.tag) ∧ (Stack.write t0 rest).isSome

/-- Nothing in the stack is protected. -/
def Free (st : Stack) : Prop := ∀ it ∈ st, it.prot = none

theorem Free.append {a b : Stack} (ha : Free a) (hb : Free b) : Free (a ++ b) := fun it h => (List.mem_append.1 h).elim (ha it) (hb it)
theorem Free.left {a b : Stack} (h : Free (a ++ b)) : Free a := fun it hi => h it (List.mem_append_left _ hi)
theorem Free.right {a b : Stack} (h : Free (a ++ b)) : Free b := fun it hi => h it (List.mem_append_right _ hi)

/-- What a read leaves of an item above the one that allows it. -/
def dim (it : Item) : Item := if it.perm = .unique then { it with perm := .disabled } else it

theorem dim_tag (it : Item) : (dim it).tag = it.tag := by unfold dim; split <;> rfl
theorem dim_prot (it : Item) : (dim it).prot = it.prot := by unfold dim; split <;> rfl
theorem dim_shared {t : Nat} {f : Option Nat} : dim ⟨.sharedRO, t, f⟩ = ⟨.sharedRO, t, f⟩ := rfl

theorem free_dim {a : Stack} (h : Free a) : Free (a.map dim) := fun it hi => by
  obtain ⟨it', h1, rfl⟩ := List.mem_map.1 hi
  rw [dim_prot]; exact h it' h1

namespace Stack

/-- Reading through a tag that nothing above has. -/
theorem read_under {t : Nat} {above st : Stack} (h : ∀ it ∈ above, it.tag ≠ t) (hf : Free above) : Stack.read t (above ++ st) = (Stack.read t st).map (above.map dim ++ ·) := by
  induction above with
  | nil => simp
  | cons it above ih =>
    have ih := ih (fun it hi => h it (List.mem_cons_of_mem _ hi)) fun it hi => hf it (List.mem_cons_of_mem _ hi)
    rw [List.cons_append, Stack.read, if_neg (fun hc => h it List.mem_cons_self hc.1), ih, hf it List.mem_cons_self, List.map_cons]
    unfold dim
    split
    · cases Stack.read t st <;> simp [hf it List.mem_cons_self]
    · cases Stack.read t st <;> simp

/-- Writing through the tag of a `unique` item that nothing above has. -/
theorem write_under {t : Nat} {above rest : Stack} {f : Option Nat} (h : ∀ it ∈ above, it.tag ≠ t) (hf : Free above) :
    Stack.write t (above ++ ⟨.unique, t, f⟩ :: rest) = some (⟨.unique, t, f⟩ :: rest) := by
  induction above with
  | nil => rw [List.nil_append, Stack.write, if_pos ⟨rfl, .inl rfl⟩]
  | cons it above ih =>
    have ih := ih (fun it hi => h it (List.mem_cons_of_mem _ hi)) fun it hi => hf it (List.mem_cons_of_mem _ hi)
    rw [List.cons_append, Stack.write, if_neg (fun hc => h it List.mem_cons_self hc.1), ih, hf it List.mem_cons_self]
    dsimp only
    rw [if_neg (fun hc => by have := hc.2.1; simp at this)]
    rfl

/-- What may be written may be written without an item of another tag on top. -/
theorem write_tail {t : Nat} {it : Item} {st : Stack} (ht : it.tag ≠ t) (h : (Stack.write t (it :: st)).isSome) : (Stack.write t st).isSome := by
  rw [Stack.write, if_neg fun hc => ht hc.1] at h
  cases e : Stack.write t st with
  | none => rw [e] at h; cases h
  | some _ => rfl

end Stack

namespace Has
variable {perm perm' : Perm} {t t' t0 : Nat} {st r w new : Stack}

theorem above (h : Has perm t t0 st) (hn : ∀ it ∈ new, t < it.tag) : Has perm t t0 (new ++ st) := by
  obtain ⟨a, rest, rfl, h1, h2⟩ := h
  exact ⟨new ++ a, rest, (List.append_assoc ..).symm, fun it hi => (List.mem_append.1 hi).elim (hn it) (h1 it), h2⟩

/-- The owner may write. -/
theorem owner (h : Has perm t t0 st) (hf : Free st) : (Stack.write t0 st).isSome := by
  obtain ⟨a, rest, rfl, h1, h2⟩ := h
  rw [show a ++ ⟨perm, t, none⟩ :: rest = (a ++ [⟨perm, t, none⟩]) ++ rest by simp] at hf ⊢
  exact Stack.write_above hf.left h2

/-- Of two references the younger one is higher. -/
theorem order {A R A' R' : Stack} (e : A ++ ⟨perm, t, none⟩ :: R = A' ++ ⟨perm', t', none⟩ :: R') (h : ∀ it ∈ A, t < it.tag) (h' : ∀ it ∈ A', t' < it.tag) (ht : t' < t) :
    ∃ B, R = B ++ ⟨perm', t', none⟩ :: R' ∧ ∀ it ∈ B, t' < it.tag := by
  rcases List.append_eq_append_iff.1 e with ⟨cs, h1, h2⟩ | ⟨cs, h1, h2⟩
  · cases cs with
    | nil => injection h2 with h2; injection h2 with _ h2; omega
    | cons x cs =>
      injection h2 with h2 h3
      exact ⟨cs, h3, fun it hi => h' it (by rw [h1]; exact List.mem_append_right _ (List.mem_cons_of_mem _ hi))⟩
  · cases cs with
    | nil => injection h2 with h2; injection h2 with _ h2; omega
    | cons x cs =>
      injection h2 with h2 h3
      have := h x (by rw [h1]; exact List.mem_append_right _ List.mem_cons_self)
      rw [← h2] at this
      dsimp only at this; omega

/-- A tag has one place. -/
theorem same {A R A' R' : Stack} (e : A ++ ⟨perm, t, none⟩ :: R = A' ++ ⟨perm', t, none⟩ :: R') (h : ∀ it ∈ A, t < it.tag) (h' : ∀ it ∈ A', t < it.tag) : A = A' ∧ perm = perm' ∧ R = R' := by
  rcases List.append_eq_append_iff.1 e with ⟨cs, h1, h2⟩ | ⟨cs, h1, h2⟩
  · cases cs with
    | nil => injection h2 with h2 h3; injection h2 with h2; exact ⟨by simpa using h1.symm, h2, h3⟩
    | cons x cs =>
      injection h2 with h2 h3
      have := h' x (by rw [h1]; exact List.mem_append_right _ List.mem_cons_self)
      rw [← h2] at this; dsimp only at this; omega
  · cases cs with
    | nil => injection h2 with h2 h3; injection h2 with h2; exact ⟨by simpa using h1, h2.symm, h3.symm⟩
    | cons x cs =>
      injection h2 with h2 h3
      have := h x (by rw [h1]; exact List.mem_append_right _ List.mem_cons_self)
      rw [← h2] at this; dsimp only at this; omega

theorem perm_eq (h : Has perm t t0 st) (h' : Has perm' t t0 st) : perm = perm' := by
  obtain ⟨A, R, e, h1, -⟩ := h
  obtain ⟨A', R', e', h1', -⟩ := h'
  exact (same (e.symm.trans e') h1 h1').2.1

/-- The byte may be written through the reference. -/
theorem write (h : Has .unique t t0 st) (hf : Free st) : (Stack.write t st).isSome := by
  obtain ⟨A, R, rfl, h1, -⟩ := h
  rw [Stack.write_under (fun it hi => by have := h1 it hi; omega) hf.left]; rfl

/-- The byte may be read through the reference. -/
theorem read (h : Has perm t t0 st) (hp : perm ≠ .disabled) (hf : Free st) : (Stack.read t st).isSome := by
  obtain ⟨A, R, rfl, h1, -⟩ := h
  rw [Stack.read_under (fun it hi => by have := h1 it hi; omega) hf.left, Stack.read, if_pos ⟨rfl, hp⟩]; rfl

/-- After a write through a reference, it and the older ones are there. -/
theorem after_write (h : Has .unique t t0 st) (hf : Free st) (e : Stack.write t st = some w) : Free w ∧ (Stack.write t0 w).isSome ∧ ∀ perm' t', t' ≤ t → Has perm' t' t0 st → Has perm' t' t0 w := by
  obtain ⟨A, R, rfl, h1, h2⟩ := h
  rw [Stack.write_under (fun it hi => by have := h1 it hi; omega) hf.left] at e
  cases e
  refine ⟨hf.right, Stack.write_above (new := [_]) (w := R) (fun it hi => by rw [List.mem_singleton.1 hi]) h2, fun perm' t' ht h' => ?_⟩
  obtain ⟨A', R', e', h1', h2'⟩ := h'
  rcases Nat.lt_or_ge t' t with hlt | hge
  · obtain ⟨B, rfl, hB⟩ := order e' h1 h1' hlt
    exact ⟨⟨.unique, t, none⟩ :: B, R', rfl, fun it hi => (List.mem_cons.1 hi).elim (fun e => by rw [e]; exact hlt) (hB it), h2'⟩
  · obtain rfl : t' = t := by omega
    obtain ⟨-, rfl, rfl⟩ := same e' h1 h1'
    exact ⟨[], R, rfl, nofun, h2⟩

/-- After a read through a reference, it, the older ones and the shared ones are there. -/
theorem after_read (h : Has perm t t0 st) (hp : perm ≠ .disabled) (hf : Free st) (e : Stack.read t st = some r) :
    Free r ∧ (Stack.write t0 r).isSome ∧ ∀ perm' t', t' ≤ t ∨ perm' = .sharedRO → Has perm' t' t0 st → Has perm' t' t0 r := by
  obtain ⟨A, R, rfl, h1, h2⟩ := h
  rw [Stack.read_under (fun it hi => by have := h1 it hi; omega) hf.left, Stack.read, if_pos ⟨rfl, hp⟩] at e
  cases e
  have hA : ∀ it ∈ A.map dim, t < it.tag := fun it hi => by
    obtain ⟨it', h3, rfl⟩ := List.mem_map.1 hi
    rw [dim_tag]; exact h1 it' h3
  have hfree : Free (A.map dim ++ ⟨perm, t, none⟩ :: R) := (free_dim hf.left).append hf.right
  have hself : Has perm t t0 (A.map dim ++ ⟨perm, t, none⟩ :: R) := ⟨_, _, rfl, hA, h2⟩
  refine ⟨hfree, hself.owner hfree, fun perm' t' ht h' => ?_⟩
  obtain ⟨A', R', e', h1', h2'⟩ := h'
  rcases Nat.lt_trichotomy t' t with hlt | rfl | hgt
  · obtain ⟨B, rfl, hB⟩ := order e' h1 h1' hlt
    refine ⟨A.map dim ++ ⟨perm, t, none⟩ :: B, R', by simp, fun it hi => ?_, h2'⟩
    rcases List.mem_append.1 hi with h3 | h3
    · have := hA it h3; omega
    · exact (List.mem_cons.1 h3).elim (fun e => by rw [e]; exact hlt) (hB it)
  · obtain ⟨rfl, rfl, rfl⟩ := same e' h1 h1'
    exact hself
  · obtain rfl : perm' = .sharedRO := ht.resolve_left (by omega)
    obtain ⟨B, rfl, hB⟩ := order e'.symm h1' h1 hgt
    -- the reference was above
    have eA : A = A' ++ ⟨.sharedRO, t', none⟩ :: B := by
      have : (A' ++ ⟨.sharedRO, t', none⟩ :: B) ++ ⟨perm, t, none⟩ :: R = A ++ ⟨perm, t, none⟩ :: R := by rw [e']; simp
      exact (List.append_cancel_right this).symm
    subst eA
    rw [List.map_append, List.map_cons, dim_shared]
    refine ⟨A'.map dim, B.map dim ++ ⟨perm, t, none⟩ :: R, by simp, fun it hi => ?_, ?_⟩
    · obtain ⟨it', h3, rfl⟩ := List.mem_map.1 hi
      rw [dim_tag]; exact h1' it' h3
    · have hB' : Free (B.map dim ++ [⟨perm, t, none⟩]) := (free_dim (Free.right (a := A' ++ [⟨.sharedRO, t', none⟩]) (b := B) (by simpa using hf.left))).append fun it hi => by rw [List.mem_singleton.1 hi]
      have := Stack.write_above hB' h2
      simpa using this

/-- After a read by the owner the shared references are there. -/
theorem after_owner (h : Has .sharedRO t t0 st) (ht : t0 < t) (hf : Free st) (e : Stack.read t0 st = some r) : Has .sharedRO t t0 r := by
  obtain ⟨A, R, rfl, h1, h2⟩ := h
  have e' : A ++ ⟨.sharedRO, t, none⟩ :: R = (A ++ [⟨.sharedRO, t, none⟩]) ++ R := by simp
  rw [e'] at e hf
  rw [Stack.read_under (fun it hi => ?_) hf.left] at e
  · obtain ⟨R', h3, rfl⟩ := Option.map_eq_some_iff.1 e
    refine ⟨A.map dim, R', by simp [dim_shared], fun it hi => ?_, Stack.write_of_read h2 h3⟩
    obtain ⟨it', h4, rfl⟩ := List.mem_map.1 hi
    rw [dim_tag]; exact h1 it' h4
  · rcases List.mem_append.1 hi with h3 | h3
    · have := h1 it h3; omega
    · rw [List.mem_singleton.1 h3]; exact Nat.ne_of_gt ht

end Has

end Simd.Borrow
