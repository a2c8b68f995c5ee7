import Verif.Lemmas.ClientSteps
/-
What the variables hold after a step.
-/
namespace Simd.Client
open Borrow Spec

variable {M : Machine} {w w' : World}

theorem contains_of_vec {s' : State} {v : Nat → Option Owned} {o : Owned} {ys : List Byte} (hO : Owns s' (ownerOf o).1 (ownerOf o).2) (hl : ys.length = o.rvec.len)
    (hr : Reads s'.mem ⟨s'.home o.rvec.buf, 0⟩ ys) : World.Contains ⟨v, s'⟩ o ys := by
  obtain ⟨q1, -, q3⟩ := owner_rvec o
  refine ⟨by rw [q3]; exact hl, ?_⟩
  have hp : place s' (ownerOf o).1 = ⟨s'.home o.rvec.buf, 0⟩ := by unfold place; rw [q1, hO.start]
  show Reads s'.mem (place s' (ownerOf o).1) ys
  rw [hp]; exact hr

theorem hasTy_move (σ : Nat → Nat) (o : Owned) (ty : EncodeTy) : (Moves.move σ o : Owned).HasTy ty ↔ o.HasTy ty := by cases o <;> cases ty <;> exact Iff.rfl

theorem reads_unique {m : Mem} {p : Ptr} {xs ys : List Byte} (h : Reads m p xs) (h' : Reads m p ys) (hl : xs.length = ys.length) : xs = ys :=
  List.ext_getElem hl fun i h1 h2 => Option.some.inj ((h.2 i h1).symm.trans (h'.2 i h2))

theorem ty_move (s s' : State) {α : Type} (c : HeapCall α) (o : Owned) : HeapTy (Moves.move s'.home o) (untagHeap s (w.argsHeap c)) → HeapTy o c := by
  intro h
  cases c <;> first | trivial | exact (hasTy_move _ _ _).1 h

theorem means_untag (s : State) {α : Type} (c : HeapCall α) (xs : List Byte) (res : Option (List Byte)) : HeapMeans xs res (untagHeap s (w.argsHeap c)) ↔ HeapMeans xs res c := by
  cases c <;> exact Iff.rfl

/-- The type of a variable that is appended to stays. -/
theorem ty_append {α : Type} {c : HeapCall α} {v : RVec} (hv : c.vec = some v) {x t : Nat}
    (h : w.vars x = some (.vec ⟨t, v.len, v.cap⟩) ∨ AppendsText c ∧ w.vars x = some (.string ⟨t, v.len, v.cap⟩)) (r : α) {o : Owned} (ho : w.vars x = some o) (ty : EncodeTy) :
    (result (w.vars x) c r).HasTy ty ↔ o.HasTy ty := by
  rcases h with h | ⟨h1, h⟩
  · rw [h] at ho ⊢; cases ho
    cases c <;> first | (cases hv; done) | (cases ty <;> exact Iff.rfl)
  · rw [h] at ho ⊢; cases ho
    cases c <;> first | (cases hv; done) | exact h1.elim | (cases ty <;> exact Iff.rfl)

/-- What a call that allocates leaves in the variable. -/
theorem heap_value (hI : Inv M.P w) {x : Nat} {α : Type} {c : HeapCall α} (h : Legal M w (.heap x c)) {w' : World} (he : exec M.P w (.heap x c) = .ok w') {xs : List Byte}
    (hl : xs.length = c.shared.len) (hx : Reads w.st.mem (place w.st ⟨w.tag c.shared.ptr.buf, c.shared.ptr.off⟩) xs) :
    (c.vec = none → HeapMeans xs none c ∧ w'.vars = w.vars ∨ ∃ ys o, HeapMeans xs (some ys) c ∧ w'.vars = w.set x (some o) ∧ HeapTy o c ∧ w'.Contains o ys) ∧
    (c.vec ≠ none → ∃ res o o', HeapMeans xs res c ∧ w.vars x = some o ∧ w'.vars = w.set x (some o') ∧ (∀ ty, o'.HasTy ty ↔ o.HasTy ty) ∧
      ∀ prev, w.Contains o prev → w'.Contains o' (prev ++ res.getD [])) := by
  obtain ⟨hr, hs, hvar⟩ := h
  have hsome : ∀ v, c.vec = some v → v.buf = x ∧ c.shared.ptr.buf ≠ x ∧ ∃ t, w.vars x = some (.vec ⟨t, v.len, v.cap⟩) ∨ AppendsText c ∧ w.vars x = some (.string ⟨t, v.len, v.cap⟩) :=
    fun v e => by rw [e] at hvar; exact hvar
  obtain ⟨hr'', hb, h⟩ := heap_borrows hI hr hs hsome
  have esh := heap_shared (w := w) c
  have he : w.after ((w.argsHeap c).borrow M.P w.st) (fun r => w.set x (some (result (w.vars x) c r))) = .ok w' := he
  unfold ObeysHeap at h
  split at h
  · rename_i r s' r' m e e'
    rw [e] at he
    injection he with he
    subst he
    obtain ⟨rfl, rfl, -, hO, -, -⟩ := h
    rw [owner_result (w.vars x)] at hO
    have hc := HeapCall.content M _ w.st.mem hr'' hb (xs := xs) (by rw [esh]; exact hl) (by rw [esh]; exact hx) e' (w.vars x)
    unfold HeapCall.Content at hc
    rw [heap_vec, result_move, result_args, rvec_move] at hc
    cases hv : c.vec with
    | none =>
      rw [hv] at hc
      obtain ⟨ys, h1, ⟨-, -, -, h3, h4⟩, h2, -⟩ := hc
      exact ⟨fun _ => .inr ⟨ys, _, (means_untag _ _ _ _).1 h1, rfl, ty_move _ _ _ _ h2, contains_of_vec hO h3.symm h4⟩, fun h => absurd rfl h⟩
    | some v =>
      rw [hv] at hc
      refine ⟨nofun, fun _ => ?_⟩
      obtain ⟨q0, o, q1, q2, q3, -⟩ := heap_var hsome v hv
      obtain ⟨-, -, t, ht⟩ := hsome v hv
      have hcon : ∀ prev, w.Contains o prev → IsVec w.st.mem { v with buf := w.st.home (w.tag v.buf) } prev := fun prev hp => heap_isVec hI q1 q0 q2 q3 hp.1 hp.2
      obtain ⟨ps, p1, p2, -⟩ := (hI.valid x o q1).content
      obtain ⟨res, h1, -, ⟨-, -, h3, h4⟩, -⟩ := hc ps (hcon ps ⟨p1, p2⟩)
      refine ⟨res, o, _, (means_untag _ _ _ _).1 h1, q1, rfl, fun ty => ty_append hv ht r q1 ty, fun prev hp => ?_⟩
      obtain rfl : prev = ps := reads_unique hp.2 p2 (hp.1.trans p1.symm)
      exact contains_of_vec hO h3.symm h4
  · rename_i s' m e e'
    rw [e] at he
    injection he with he
    subst he
    obtain ⟨-, -, hv, -⟩ := h
    rw [argsHeap_vec] at hv
    have hv : c.vec = none := Option.map_eq_none_iff.1 hv
    have h1 := HeapCall.content_err M _ w.st.mem hr'' hb (xs := xs) (by rw [esh]; exact hl) (by rw [esh]; exact hx) e'
    exact ⟨fun _ => .inl ⟨(means_untag _ _ _ _).1 h1, rfl⟩, fun h => absurd hv h⟩
  · rename_i e _; rw [e] at he; cases he
  · exact h.elim

/-- A new vector or string. -/
theorem new_value {P : Plat} (w : World) (x : Nat) (text : Bool) {bs : List Byte} {cap : Nat} (hl : bs.length ≤ cap) :
    ∃ o s', exec P w (.new x text bs cap) = .ok ⟨w.set x (some o), s'⟩ ∧ o = (if text then .string ⟨w.st.next, bs.length, cap⟩ else .vec ⟨w.st.next, bs.length, cap⟩) ∧
      ∀ v, World.Contains ⟨v, s'⟩ o bs := by
  refine ⟨_, { State.allocated w.st cap with mem := (w.st.mem.alloc cap).write ⟨w.st.mem.nbuf, 0⟩ bs }, ?_, rfl, fun v => ⟨by cases text <;> rfl, ?_⟩⟩
  · show w.after (prog (create bs cap) w.st) _ = _
    rw [create_eq _ _ _ hl]
    rfl
  · have ho : ownerOf (if text then .string ⟨w.st.next, bs.length, cap⟩ else .vec ⟨w.st.next, bs.length, cap⟩ : Owned) = (⟨w.st.next, 0⟩, cap) := by cases text <;> rfl
    rw [ho]
    show Reads ((w.st.mem.alloc cap).write ⟨w.st.mem.nbuf, 0⟩ bs) ⟨if w.st.next = w.st.next then w.st.mem.nbuf else _, 0⟩ bs
    rw [if_pos rfl]
    refine ⟨?_, fun i hi => ?_⟩
    · show 0 + bs.length ≤ if w.st.mem.nbuf = w.st.mem.nbuf then cap else _
      rw [if_pos rfl]; omega
    · show (if w.st.mem.nbuf = w.st.mem.nbuf ∧ 0 ≤ 0 + i ∧ 0 + i < 0 + bs.length then bs[0 + i - 0]? else _) = _
      rw [if_pos ⟨rfl, by omega, by omega⟩]
      rw [show 0 + i - 0 = i by omega, List.getElem?_eq_getElem hi]

end Simd.Client
