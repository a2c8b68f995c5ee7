import Verif.Lemmas.Client
import Verif.Lemmas.Unwind
/-
Every step that safe Rust allows keeps what the variables hold valid.
-/
namespace Simd.Client
open Borrow Spec

variable {M : Machine} {w : World}

/-- What is to be shown of a step. -/
def Fine (P : Plat) (w : World) (X : Nat → Prop) : End → Prop
  | .ok w' => Inv P w' ∧ Keeps w w' X
  | .panic => True
  | .ub => False

/-! ### Reading and writing -/

theorem read_fine (hI : Inv M.P w) {x off n : Nat} (h : w.Holds ⟨x, off⟩ n) : Fine M.P w (fun _ => False) (exec M.P w (.read x off n)) := by
  obtain ⟨xs, hl, hx⟩ := holds_reads hI h
  obtain ⟨o, h1, h2⟩ := h
  have hle := len_le hI h1
  have hr : (loadBytes (place w.st ⟨w.tag x, off⟩) n).run w.st.mem ≠ .ub := by
    subst hl
    show (Prog.load _ _ _).run _ ≠ _
    rw [prog_run_load, hx.has.read]; nofun
  have h := load_sim (E := fun _ => False) (part_readable hI h1 (off := off) (n := n) (by dsimp only at h2; omega)) hr
  show Fine M.P w (fun _ => False) (w.after (prog (loadBytes ⟨w.tag x, off⟩ n) w.st) fun _ => w.vars)
  unfold Sim at h
  split at h
  · rename_i bs s' bs' m e _
    rw [e]
    obtain ⟨-, -, -, S, rfl, h3, h4⟩ := h
    have hA : AfterCall w.st { w.st with stack := S } (over (place w.st ⟨w.tag x, off⟩) n (.shared (w.tag x)) fun _ _ => .none) := by
      refine ⟨Nat.le_refl _, rfl, fun _ _ => rfl, fun b i => ?_⟩
      by_cases hi : In (place w.st ⟨w.tag x, off⟩) n b i
      · refine .inr ?_
        rw [over_in hi]
        exact ⟨S b i, [], h3 b i hi, rfl, nofun⟩
      · exact .inl (h4 b i hi)
    refine hI.same (W := fun _ _ => False) hA (.refl _ _) rfl (fun y o' hy i hi => ?_) (fun b i => ?_) fun _ _ _ _ _ h => h
    · by_cases hin : In (place w.st ⟨w.tag x, off⟩) n (w.st.home (ownerOf o').1.buf) i
      · rw [over_in hin, (loan_own hI hy h1 hin).2]; exact .inr (.inl rfl)
      · rw [over_out hin]; exact .inl rfl
    · by_cases hin : In (place w.st ⟨w.tag x, off⟩) n b i
      · rw [over_in hin]; nofun
      · rw [over_out hin]; nofun
  · exact h.2.elim
  · rename_i e _; rw [e]; trivial
  · exact h.elim

theorem write_fine (hI : Inv M.P w) {x off : Nat} {bs : List Byte} {o : Owned} (h1 : w.vars x = some o) (h2 : off + bs.length ≤ len o) (ht : ¬ IsText o) :
    Fine M.P w (· = x) (exec M.P w (.write x off bs)) := by
  have hle := len_le hI h1
  have ho := (hI.valid x o h1).owns
  have h := store_sim (E := fun _ => False) (part_mutable hI h1 (off := off) (n := bs.length) (by omega)) (by
    have := ho.size
    dsimp only
    rw [tag_eq h1, this]; omega)
  show Fine M.P w (· = x) (w.after (prog (storeBytes ⟨w.tag x, off⟩ bs) w.st) fun _ => w.vars)
  unfold Sim at h
  split at h
  · rename_i _ s' _ m e _
    rw [e]
    obtain ⟨-, S, rfl, h3, h4⟩ := h
    have hA : AfterCall w.st { w.st with stack := S, mem := w.st.mem.write (place w.st ⟨w.tag x, off⟩) bs } (over (place w.st ⟨w.tag x, off⟩) bs.length (.excl (w.tag x)) fun _ _ => .none) := by
      refine ⟨Nat.le_refl _, rfl, fun _ _ => rfl, fun b i => ?_⟩
      by_cases hi : In (place w.st ⟨w.tag x, off⟩) bs.length b i
      · refine .inr ?_
        rw [over_in hi]
        exact ⟨S b i, [], h3 b i hi, rfl, nofun⟩
      · exact .inl (h4 b i hi)
    refine hI.same hA (.write w.st.mem (place w.st ⟨w.tag x, off⟩) bs) rfl (fun y o' hy i hi => ?_) (fun b i => ?_) fun y o' hy ht' i hin => ?_
    · by_cases hin : In (place w.st ⟨w.tag x, off⟩) bs.length (w.st.home (ownerOf o').1.buf) i
      · rw [over_in hin, (loan_own hI hy h1 hin).2]; exact .inr (.inr rfl)
      · rw [over_out hin]; exact .inl rfl
    · by_cases hin : In (place w.st ⟨w.tag x, off⟩) bs.length b i
      · rw [over_in hin]; nofun
      · rw [over_out hin]; nofun
    · obtain ⟨rfl, -⟩ := loan_own hI hy h1 hin
      rw [hy] at h1; cases h1
      exact ht'.elim (fun h => h rfl) ht
  · exact h.2.elim
  · rename_i e _; rw [e]; trivial
  · exact h.elim

/-- What a step that may change variable `x` only, and reads the `n` bytes at `p`, does to other memory. -/
def Stays (w w' : World) (x : Nat) (p : Ptr) (n : Nat) : Prop :=
  ∃ G, AfterCall w.st w'.st G ∧ MemAfter w.st.mem w'.st.mem (fun b _ => w.st.mem.nbuf ≤ b ∨ ∃ o, w.vars x = some o ∧ b = w.st.home (ownerOf o).1.buf) ∧
    ∀ b i, b < w.st.mem.nbuf → (∀ o, w.vars x = some o → w.st.home (ownerOf o).1.buf ≠ b) → G b i = .none ∨ In (place w.st p) n b i ∧ G b i = .shared p.buf

/-- What is to be shown of a step that changes what variable `x` holds. -/
def FineHeap (P : Plat) (w : World) (x : Nat) (p : Ptr) (n : Nat) : End → Prop
  | .ok w' => Inv P w' ∧ Keeps w w' (· = x) ∧ Stays w w' x p n ∧ ∀ y, y ≠ x → w'.vars y = w.vars y
  | .panic => True
  | .ub => False

theorem FineHeap.fine {P : Plat} {x : Nat} {p : Ptr} {n : Nat} {e : End} (h : FineHeap P w x p n e) : Fine P w (· = x) e := by
  cases e with
  | ok w' => exact ⟨h.1, h.2.1⟩
  | panic => trivial
  | ub => exact h

/-! ### A new variable -/

theorem create_eq (s : State) (bs : List Byte) (cap : Nat) (h : bs.length ≤ cap) :
    prog (create bs cap) s = .ok s.next { State.allocated s cap with mem := (s.mem.alloc cap).write ⟨s.mem.nbuf, 0⟩ bs } := by
  have hm : Mutable (State.allocated s cap) ⟨s.next, 0⟩ bs.length := OnTop.mutable (onTop_alloc s cap _) (.inl rfl)
  obtain ⟨S, h1, h2, h3⟩ := touch_ok (s := State.allocated s cap) (f := Stack.write s.next) (p := ⟨s.next, 0⟩) (n := bs.length) hm
  have hS : S = (State.allocated s cap).stack := by
    funext b i
    by_cases hi : In (place (State.allocated s cap) ⟨s.next, 0⟩) bs.length b i
    · have h4 := h2 b i hi
      obtain ⟨rest, h5⟩ := onTop_alloc s cap bs.length b i hi
      rw [h5] at h4 ⊢
      dsimp only at h4
      rw [Stack.write_new] at h4
      exact (Option.some.inj h4).symm
    · exact h3 b i hi
  have e : prog (create bs cap) s = match (State.allocated s cap).touch (Stack.write s.next) ⟨s.next, 0⟩ bs.length with
      | some st => if 0 + bs.length ≤ (State.allocated s cap).mem.size ((State.allocated s cap).home s.next) then
          .ok s.next { State.allocated s cap with stack := st, mem := (State.allocated s cap).mem.write ⟨(State.allocated s cap).home s.next, 0⟩ bs } else .ub
      | none => .ub := rfl
  have hh : (State.allocated s cap).home s.next = s.mem.nbuf := if_pos rfl
  have hz : (State.allocated s cap).mem.size s.mem.nbuf = cap := if_pos rfl
  rw [e, h1]
  dsimp only
  rw [hh, hz, if_pos (by omega), hS]
  rfl

theorem new_fine' (hI : Inv M.P w) {x : Nat} {text : Bool} {bs : List Byte} {cap : Nat} (hx : w.vars x = none) (hl : bs.length ≤ cap) (hc : cap ≤ M.P.isizeMax) (ht : text = true → ValidUtf8 bs) :
    FineHeap M.P w x ⟨0, 0⟩ 0 (exec M.P w (.new x text bs cap)) := by
  show FineHeap M.P w x ⟨0, 0⟩ 0 (w.after (prog (create bs cap) w.st) fun b => w.set x (some (if text then .string ⟨b, bs.length, cap⟩ else .vec ⟨b, bs.length, cap⟩)))
  rw [create_eq _ _ _ hl]
  let o : Owned := if text then .string ⟨w.st.next, bs.length, cap⟩ else .vec ⟨w.st.next, bs.length, cap⟩
  have ho : ownerOf o = (⟨w.st.next, 0⟩, cap) := by cases text <;> rfl
  have hlen : len o = bs.length := by cases text <;> rfl
  let s' : State := { State.allocated w.st cap with mem := (w.st.mem.alloc cap).write ⟨w.st.mem.nbuf, 0⟩ bs }
  have hA : AfterCall w.st s' (fresh w.st.mem.nbuf) := ⟨(after_alloc w.st cap).next, (after_alloc w.st cap).frame, (after_alloc w.st cap).home, (after_alloc w.st cap).stack⟩
  have hh : s'.home w.st.next = w.st.mem.nbuf := if_pos rfl
  have hm : MemAfter w.st.mem s'.mem (fun b _ => b = w.st.mem.nbuf) := (MemAfter.alloc ..).trans ((MemAfter.write ..).mono fun b i h => h.1)
  have key := hI.assign x (some o) hA hm (fun y o' _ hy i _ => .inl ?_) (fun b i hb _ => ?_) (fun y o' _ hy i h => ?_) (fun o' e => ?_) (fun b h1 h2 h3 => ?_) (fun o' e => ?_)
  · exact ⟨key.1, key.2, ⟨_, hA, hm.mono fun b _ h => .inl (by omega), fun b i hb _ => .inl (if_neg (by omega))⟩, fun y hy => if_neg hy⟩
  · exact if_neg (by have := (hI.valid y o' hy).owns.exists_; omega)
  · rw [show fresh w.st.mem.nbuf b i = .none from if_neg (by omega)]; nofun
  · have := (hI.valid y o' hy).owns.exists_; omega
  · cases e
    rw [ho]
    refine ⟨⟨?_, by rw [ho]; exact hc, ?_⟩, .inl (by rw [hh])⟩
    · rw [ho]
      refine ⟨Nat.lt_succ_self _, rfl, by rw [hh]; exact Nat.lt_succ_self _, by rw [hh]; exact if_pos rfl, OnTop.mutable (onTop_alloc w.st cap cap) (.inl rfl), fun i _ it hi => ?_⟩
      rw [hh] at hi
      have e : s'.stack w.st.mem.nbuf i = [⟨.unique, w.st.next, none⟩] := if_pos rfl
      rw [e] at hi
      rw [List.mem_singleton.1 hi]
    · refine ⟨bs, hlen.symm, ?_, fun h => ?_⟩
      · rw [ho]
        have hp : place s' ⟨w.st.next, 0⟩ = ⟨w.st.mem.nbuf, 0⟩ := by unfold place; rw [hh]
        rw [hp]
        refine ⟨?_, fun i hi => ?_⟩
        · show 0 + bs.length ≤ if w.st.mem.nbuf = w.st.mem.nbuf then cap else _
          rw [if_pos rfl]; omega
        · show (if w.st.mem.nbuf = w.st.mem.nbuf ∧ 0 ≤ 0 + i ∧ 0 + i < 0 + bs.length then bs[0 + i - 0]? else _) = _
          rw [if_pos ⟨rfl, by omega, by omega⟩]
          rw [show 0 + i - 0 = i by omega, List.getElem?_eq_getElem hi]
      · refine ht ?_
        cases text
        · exact h.elim
        · rfl
  · have h4 := h3 o rfl
    rw [ho, hh] at h4
    have : b < w.st.mem.nbuf + 1 := h2
    omega
  · rw [hx] at e; cases e

theorem new_fine (hI : Inv M.P w) {x : Nat} {text : Bool} {bs : List Byte} {cap : Nat} (hx : w.vars x = none) (hl : bs.length ≤ cap) (hc : cap ≤ M.P.isizeMax) (ht : text = true → ValidUtf8 bs) :
    Fine M.P w (· = x) (exec M.P w (.new x text bs cap)) := (new_fine' hI hx hl hc ht).fine

/-! ### The end of a scope -/

theorem drop_eq (o : Owned) : dropOwned o = if (ownerOf o).2 = 0 then pure () else dealloc (ownerOf o).1 (ownerOf o).2 := by cases o <;> rfl

theorem drop_fine' (hI : Inv M.P w) {x : Nat} {o : Owned} (hx : w.vars x = some o) : FineHeap M.P w x ⟨0, 0⟩ 0 (exec M.P w (.drop x)) := by
  have hO := (hI.valid x o hx).owns
  have h := drop_sim (E := fun _ => False) (drop_eq o) hO
  show FineHeap M.P w x ⟨0, 0⟩ 0 (match w.vars x with | some o => w.after (dropOwned o w.st) fun _ => w.set x none | none => .ub)
  rw [hx]
  unfold Sim at h
  split at h
  · rename_i _ s' _ m e e'
    cases e'
    dsimp only
    rw [e]
    obtain ⟨hm, h1, h2, h3, h4, h5⟩ := h
    have hA : AfterCall w.st s' fun b _ => if b = w.st.home (ownerOf o).1.buf then .own else .none := by
      refine ⟨by omega, h2, fun t _ => by rw [h3], fun b i => ?_⟩
      by_cases hi : b = w.st.home (ownerOf o).1.buf ∧ i < (ownerOf o).2
      · refine .inr ?_
        rw [if_pos hi.1, h4 b i hi]; nofun
      · exact .inl (h5 b i hi)
    have key := hI.assign x none (W := fun _ _ => False) hA (hm ▸ .refl _ _) (fun y o' hne hy i _ => .inl (if_neg fun e => hne (hI.apart y x o' o hy hx e))) (fun b i _ hb => ?_) (fun _ _ _ _ _ h => h)
      (fun _ e => nomatch e) (fun b h6 h7 _ => ?_) (fun o' e' _ i hi => ?_)
    · exact ⟨key.1, key.2, ⟨_, hA, hm ▸ .refl _ _, fun b i _ hb => .inl (if_neg (Ne.symm (hb o hx)))⟩, fun y hy => if_neg hy⟩
    · rw [if_neg (Ne.symm (hb o hx))]; nofun
    · rw [hm] at h7; omega
    · rw [hx] at e'; cases e'
      exact h4 _ i ⟨rfl, by rw [hm, hO.size] at hi; exact hi⟩
  all_goals rename_i e' ; try cases e'
  all_goals exact h.elim

theorem drop_fine (hI : Inv M.P w) {x : Nat} {o : Owned} (hx : w.vars x = some o) : Fine M.P w (· = x) (exec M.P w (.drop x)) := (drop_fine' hI hx).fine

/-! ### Calls with slices -/

theorem args_shared {α : Type} (c : Call α) : (w.args c).shared = (⟨w.tag c.shared.1.buf, c.shared.1.off⟩, c.shared.2) := untag_shared _ c
theorem args_exclusive {α : Type} (c : Call α) : (w.args c).exclusive = (⟨w.tag c.exclusive.1.buf, c.exclusive.1.off⟩, c.exclusive.2) := untag_exclusive _ c

theorem call_borrows (hI : Inv M.P w) {α : Type} {c : Call α} (hr : c.RunsOn M) (hs : w.Holds c.shared.1 c.shared.2) {o : Owned} (he : w.vars c.exclusive.1.buf = some o)
    (hc : c.exclusive.1.off + c.exclusive.2 ≤ (ownerOf o).2) (hi : InPlace c → w.Holds c.exclusive.1 c.exclusive.2)
    (hno : NoOverlap c.shared.1 c.shared.2 c.exclusive.1 c.exclusive.2) : (untag w.st (w.args c)).RunsOn M ∧ (untag w.st (w.args c)).Borrows M.P w.st.mem ∧
      Obeys M.P w.st (w.args c) (((untag w.st (w.args c)).prog M.P).run w.st.mem) := by
  obtain ⟨os, hs1, hs2⟩ := id hs
  have hVs := hI.valid _ os hs1
  have hVe := hI.valid _ o he
  have hle := len_le hI hs1
  have esh : (untag w.st (w.args c)).shared = (place w.st ⟨w.tag c.shared.1.buf, c.shared.1.off⟩, c.shared.2) := by rw [untag_shared, args_shared]
  have eex : (untag w.st (w.args c)).exclusive = (place w.st ⟨w.tag c.exclusive.1.buf, c.exclusive.1.off⟩, c.exclusive.2) := by rw [untag_exclusive, args_exclusive]
  have hr' : (w.args c).RunsOn M := by cases c <;> exact hr
  have hr'' : (untag w.st (w.args c)).RunsOn M := by cases c <;> exact hr
  have hl : Lends w.st (w.args c) := by
    refine ⟨?_, ?_, ?_, ?_⟩
    · rw [args_shared]; dsimp only; rw [tag_eq hs1]; exact hVs.owns.tag
    · rw [args_exclusive]; dsimp only; rw [tag_eq he]; exact hVe.owns.tag
    · rw [args_shared]; exact part_readable hI hs1 (by omega)
    · rw [args_exclusive]; exact part_mutable hI he hc
  have hb : (untag w.st (w.args c)).Borrows M.P w.st.mem := by
    have h1 := hVs.max
    have h2 := hVe.max
    have hw : Writable w.st.mem (place w.st ⟨w.tag c.exclusive.1.buf, c.exclusive.1.off⟩) c.exclusive.2 := by
      show c.exclusive.1.off + _ ≤ w.st.mem.size (w.st.home (w.tag c.exclusive.1.buf))
      rw [tag_eq he, hVe.owns.size]; exact hc
    have hno' : NoOverlap (place w.st ⟨w.tag c.shared.1.buf, c.shared.1.off⟩) c.shared.2 (place w.st ⟨w.tag c.exclusive.1.buf, c.exclusive.1.off⟩) c.exclusive.2 := fun i j h3 h4 h5 => by
      refine hno i j h3 h4 ⟨hI.apart _ _ _ _ hs1 he ?_, h5.2⟩
      have e := h5.1
      simp only [place] at e
      rwa [tag_eq hs1, tag_eq he] at e
    refine ⟨by rw [esh]; exact holds_reads hI hs, by rw [eex]; exact hw, by rw [esh]; dsimp only; omega, by rw [eex]; dsimp only; omega, ?_⟩
    cases c <;> first | exact trivial | exact holds_reads hI (hi trivial) | exact hno'
  exact ⟨hr'', hb, C85_call M (w.args c) w.st hr' hI.sound hl hb⟩

theorem call_fine (hI : Inv M.P w) {α : Type} {c : Call α} (hr : c.RunsOn M) (hs : w.Holds c.shared.1 c.shared.2) {o : Owned} (he : w.vars c.exclusive.1.buf = some o)
    (hc : c.exclusive.1.off + c.exclusive.2 ≤ (ownerOf o).2) (ht : 0 < c.exclusive.2 → ¬ IsText o) (hi : InPlace c → w.Holds c.exclusive.1 c.exclusive.2)
    (hno : NoOverlap c.shared.1 c.shared.2 c.exclusive.1 c.exclusive.2) : Fine M.P w (fun y => y = c.exclusive.1.buf ∧ 0 < c.exclusive.2) (exec M.P w (.call c)) := by
  obtain ⟨os, hs1, hs2⟩ := id hs
  have eex : (untag w.st (w.args c)).exclusive = (place w.st ⟨w.tag c.exclusive.1.buf, c.exclusive.1.off⟩, c.exclusive.2) := by rw [untag_exclusive, args_exclusive]
  obtain ⟨hr'', hb, h⟩ := call_borrows hI hr hs he hc hi hno
  have key : ∀ s', AfterCall w.st s' (loans w.st (w.args c)) → ((∃ r, ((untag w.st (w.args c)).prog M.P).run w.st.mem = .ok r s'.mem) ∨ ((untag w.st (w.args c)).prog M.P).run w.st.mem = .err s'.mem) →
      Inv M.P ⟨w.vars, s'⟩ ∧ Keeps w ⟨w.vars, s'⟩ (fun y => y = c.exclusive.1.buf ∧ 0 < c.exclusive.2) := fun s' hA hrun => by
    have hm := Prog.run_after (Call.fine M _ w.st.mem hr'' hb).inside hrun
    have hn := (Uses.shape (Call.noalloc M.P (untag w.st (w.args c))) hrun).1
    rw [eex] at hm
    dsimp only at hm
    refine hI.same hA hm hn (fun y o' hy i _ => ?_) (fun b i => ?_) fun y o' hy ht' i hin => ?_
    · unfold loans
      rw [args_shared, args_exclusive]
      dsimp only
      split
      · rename_i hin; exact .inr (.inl (by rw [(loan_own hI hy hs1 hin).2]))
      · split
        · rename_i hin; exact .inr (.inr (by rw [(loan_own hI hy he hin).2]))
        · exact .inl rfl
    · unfold loans
      split
      · nofun
      · split <;> nofun
    · obtain ⟨e, -⟩ := loan_own hI hy he hin
      rw [e, hy] at he; cases he
      have hlt : 0 < c.exclusive.2 := by have := hin.2; omega
      exact ht'.elim (fun h => h ⟨e.symm, hlt⟩) (ht hlt)
  show Fine M.P w (fun y => y = c.exclusive.1.buf ∧ 0 < c.exclusive.2) (w.after ((w.args c).borrow M.P w.st) fun _ => w.vars)
  unfold Obeys at h
  split at h
  · rename_i r s' r' m e e'
    rw [e]
    exact key s' h.2.1 (.inl ⟨r', by rw [e', h.1]⟩)
  · rename_i s' m e e'
    rw [e]
    exact key s' h.2 (.inr (by rw [e', h.1]))
  · rename_i e _; rw [e]; trivial
  · exact h.elim

/-! ### Calls that allocate -/

theorem untagHeap_shared {α : Type} (s : State) (c : HeapCall α) : (untagHeap s c).shared = ⟨place s c.shared.ptr, c.shared.len⟩ := by cases c <;> rfl
theorem untagHeap_vec {α : Type} (s : State) (c : HeapCall α) : (untagHeap s c).vec = c.vec.map fun v => { v with buf := s.home v.buf } := by cases c <;> rfl

theorem argsHeap_shared {α : Type} (c : HeapCall α) : (w.argsHeap c).shared = ⟨⟨w.tag c.shared.ptr.buf, c.shared.ptr.off⟩, c.shared.len⟩ := untagHeap_shared _ c
theorem argsHeap_vec {α : Type} (c : HeapCall α) : (w.argsHeap c).vec = c.vec.map fun v => { v with buf := w.tag v.buf } := untagHeap_vec _ c

theorem owner_result {α : Type} (old : Option Owned) (c : HeapCall α) (r : α) : owner (w.argsHeap c) r = ownerOf (result old c r) := by
  cases c <;> first | rfl | (dsimp only [World.argsHeap, untagHeap, owner, result]; split <;> rfl)

theorem rvec_move (σ : Nat → Nat) (o : Owned) : (Moves.move σ o : Owned).rvec = { o.rvec with buf := σ o.rvec.buf } := by cases o <;> rfl
theorem text_move (σ : Nat → Nat) (o : Owned) : IsText (Moves.move σ o : Owned) ↔ IsText o := by cases o <;> rfl
theorem owner_rvec (o : Owned) : (ownerOf o).1.buf = o.rvec.buf ∧ (ownerOf o).2 = o.rvec.cap ∧ len o = o.rvec.len := by cases o <;> exact ⟨rfl, rfl, rfl⟩

theorem result_move {α : Type} (s s' : State) (old : Option Owned) (c : HeapCall α) (r : α) :
    result old (untagHeap s c) (untagResult s' c r) = Moves.move s'.home (result old c r) := by
  cases c <;> first | rfl | (dsimp only [untagHeap, untagResult, result]; split <;> rfl)

theorem result_args {α : Type} (old : Option Owned) (c : HeapCall α) (r : α) : result old (w.argsHeap c) r = result old c r := by
  cases c <;> rfl

theorem appends_args {α : Type} (s : State) (c : HeapCall α) : AppendsText (untagHeap s c) ↔ AppendsText c := by cases c <;> rfl

/-- No new allocation has more than `isize::MAX` bytes. -/
theorem _root_.Simd.HeapCall.max_size (M : Machine) {α : Type} (c : HeapCall α) (m : Mem) (hr : c.RunsOn M) (hb : c.Borrows M.P m) {m' : Mem}
    (h : (∃ r, (c.prog M.P).run m = .ok r m') ∨ (c.prog M.P).run m = .err m') {b : Nat} (h1 : m.nbuf ≤ b) (h2 : b < m'.nbuf) : m'.size b ≤ M.P.isizeMax := by
  rcases Prog.run_sizes h h1 h2 with h3 | h3
  · omega
  · rcases c.one M m hr hb with h4 | ⟨n, -, h5, h4⟩
    · rw [h4] at h3; cases h3
    · rw [h4, List.mem_singleton] at h3; omega

/-- Appending to a vector gives a vector. -/
theorem text_vec {α : Type} {c : HeapCall α} {v v' : RVec} (hv : c.vec = some v) (r : α) : ¬ IsText (result (some (.vec v')) c r) := by
  cases c <;> first | (cases hv; done) | exact id

theorem heap_shared {α : Type} (c : HeapCall α) : (untagHeap w.st (w.argsHeap c)).shared = ⟨place w.st ⟨w.tag c.shared.ptr.buf, c.shared.ptr.off⟩, c.shared.len⟩ := by
  rw [untagHeap_shared, argsHeap_shared]
theorem heap_vec {α : Type} (c : HeapCall α) : (untagHeap w.st (w.argsHeap c)).vec = c.vec.map fun v => { v with buf := w.st.home (w.tag v.buf) } := by
  rw [untagHeap_vec, argsHeap_vec, Option.map_map]; rfl

/-- The variable that is appended to. -/
theorem heap_var' {x : Nat} {α : Type} {c : HeapCall α}
    (hsome : ∀ v, c.vec = some v → v.buf = x ∧ ∃ t, w.vars x = some (.vec ⟨t, v.len, v.cap⟩) ∨ AppendsText c ∧ w.vars x = some (.string ⟨t, v.len, v.cap⟩)) (v : RVec)
    (hv : c.vec = some v) : v.buf = x ∧ ∃ o, w.vars x = some o ∧ ownerOf o = (⟨w.tag x, 0⟩, v.cap) ∧ len o = v.len ∧ (∀ r, IsText (result (w.vars x) c r) → AppendsText c ∧ IsText o) := by
  obtain ⟨h1, t, h2⟩ := hsome v hv
  refine ⟨h1, ?_⟩
  rcases h2 with h2 | ⟨h3, h2⟩
  · exact ⟨_, h2, by rw [tag_eq h2]; rfl, rfl, fun r h => by rw [h2] at h; exact absurd h (text_vec hv r)⟩
  · exact ⟨_, h2, by rw [tag_eq h2]; rfl, rfl, fun r _ => ⟨h3, trivial⟩⟩

theorem heap_var {x : Nat} {α : Type} {c : HeapCall α}
    (hsome : ∀ v, c.vec = some v → v.buf = x ∧ c.shared.ptr.buf ≠ x ∧ ∃ t, w.vars x = some (.vec ⟨t, v.len, v.cap⟩) ∨ AppendsText c ∧ w.vars x = some (.string ⟨t, v.len, v.cap⟩)) (v : RVec)
    (hv : c.vec = some v) : v.buf = x ∧ ∃ o, w.vars x = some o ∧ ownerOf o = (⟨w.tag x, 0⟩, v.cap) ∧ len o = v.len ∧ (∀ r, IsText (result (w.vars x) c r) → AppendsText c ∧ IsText o) :=
  heap_var' (fun v hv => let ⟨h1, _, h2⟩ := hsome v hv; ⟨h1, h2⟩) v hv

/-- What a variable that can be appended to holds, as a vector. -/
theorem heap_isVec (hI : Inv M.P w) {x : Nat} {o : Owned} {v : RVec} {ys : List Byte} (hx : w.vars x = some o) (hb : v.buf = x) (ho : ownerOf o = (⟨w.tag x, 0⟩, v.cap)) (hlen : len o = v.len)
    (hy : ys.length = len o) (hr : Reads w.st.mem (place w.st (ownerOf o).1) ys) : IsVec w.st.mem { v with buf := w.st.home (w.tag v.buf) } ys := by
  have hO := (hI.valid _ o hx).owns
  subst hb
  rw [ho] at hr hO
  exact ⟨hO.exists_, hO.size.symm, by dsimp only; omega, hr⟩

/-- The call with the tags that the names in it stand for. -/
def withTags (w : World) (tg : Nat → Nat) {α : Type} (c : HeapCall α) : HeapCall α := untagHeap { w.st with home := tg } c

/-- The `n` bytes at the tagged pointer can be lent with `&`. -/
structure Source (P : Plat) (s : State) (p : Ptr) (n : Nat) : Prop where
  tag : p.buf < s.next
  exists_ : s.home p.buf < s.mem.nbuf
  readable : Readable s p n
  content : ∃ xs, xs.length = n ∧ Reads s.mem (place s p) xs
  max : n ≤ P.isizeMax

theorem source_holds {P : Plat} (hI : Inv P w) {p : Ptr} {n : Nat} (h : w.Holds p n) : Source P w.st ⟨w.tag p.buf, p.off⟩ n := by
  obtain ⟨o, h1, h2⟩ := id h
  have hV := hI.valid _ o h1
  have hle := len_le hI h1
  have := hV.max
  exact ⟨by rw [tag_eq h1]; exact hV.owns.tag, by rw [tag_eq h1]; exact hV.owns.exists_, part_readable hI h1 (by omega), holds_reads hI h, by omega⟩

theorem withTags_shared (tg : Nat → Nat) {α : Type} (c : HeapCall α) : (withTags w tg c).shared = ⟨⟨tg c.shared.ptr.buf, c.shared.ptr.off⟩, c.shared.len⟩ := untagHeap_shared _ c
theorem withTags_vec (tg : Nat → Nat) {α : Type} (c : HeapCall α) : (withTags w tg c).vec = c.vec.map fun v => { v with buf := tg v.buf } := untagHeap_vec _ c
theorem owner_withTags {α : Type} (tg : Nat → Nat) (old : Option Owned) (c : HeapCall α) (r : α) : owner (withTags w tg c) r = ownerOf (result old c r) := by
  cases c <;> first | rfl | (dsimp only [withTags, untagHeap, owner, result]; split <;> rfl)
theorem result_withTags {α : Type} (tg : Nat → Nat) (old : Option Owned) (c : HeapCall α) (r : α) : result old (withTags w tg c) r = result old c r := by
  cases c <;> rfl
theorem plain_shared (tg : Nat → Nat) {α : Type} (c : HeapCall α) : (untagHeap w.st (withTags w tg c)).shared = ⟨place w.st ⟨tg c.shared.ptr.buf, c.shared.ptr.off⟩, c.shared.len⟩ := by
  rw [untagHeap_shared, withTags_shared]
theorem plain_vec (tg : Nat → Nat) {α : Type} (c : HeapCall α) : (untagHeap w.st (withTags w tg c)).vec = c.vec.map fun v => { v with buf := w.st.home (tg v.buf) } := by
  rw [untagHeap_vec, withTags_vec, Option.map_map]; rfl

/-- What safe Rust guarantees is what the theorems about the calls ask for. -/
theorem heap_borrows' (hI : Inv M.P w) {x : Nat} {α : Type} {c : HeapCall α} {tg : Nat → Nat} (hr : c.RunsOn M) (hs : Source M.P w.st ⟨tg c.shared.ptr.buf, c.shared.ptr.off⟩ c.shared.len)
    (hsome : ∀ v, c.vec = some v → v.buf = x ∧ ∃ t, w.vars x = some (.vec ⟨t, v.len, v.cap⟩) ∨ AppendsText c ∧ w.vars x = some (.string ⟨t, v.len, v.cap⟩))
    (htag : ∀ v, c.vec = some v → tg x = w.tag x ∧ w.st.home (tg c.shared.ptr.buf) ≠ w.st.home (w.tag x)) :
    (untagHeap w.st (withTags w tg c)).RunsOn M ∧ (untagHeap w.st (withTags w tg c)).Borrows M.P w.st.mem ∧
      ObeysHeap M.P w.st (withTags w tg c) (((untagHeap w.st (withTags w tg c)).prog M.P).run w.st.mem) := by
  have esh := plain_shared (w := w) tg c
  have evec := plain_vec (w := w) tg c
  have hr' : (withTags w tg c).RunsOn M := by cases c <;> exact hr
  have hr'' : (untagHeap w.st (withTags w tg c)).RunsOn M := by cases c <;> exact hr
  have hvar := heap_var' hsome
  have hl : LendsHeap w.st (withTags w tg c) := by
    refine ⟨?_, ?_, fun v' hv' => ?_⟩
    · rw [withTags_shared]; exact hs.tag
    · rw [withTags_shared]; exact hs.readable
    · rw [withTags_vec] at hv'
      obtain ⟨v, hv, rfl⟩ := Option.map_eq_some_iff.1 hv'
      have ht := (htag v hv).1
      obtain ⟨rfl, o, h1, h2, -⟩ := hvar v hv
      have hO := (hI.valid _ o h1).owns
      rw [h2] at hO
      dsimp only
      rw [ht]
      exact hO
  have hb : (untagHeap w.st (withTags w tg c)).Borrows M.P w.st.mem := by
    refine ⟨by rw [esh]; exact hs.content, ?_, by rw [esh]; exact hs.max, fun v' hv' => ?_⟩
    · rw [esh]; exact hs.exists_
    · rw [evec] at hv'
      obtain ⟨v, hv, rfl⟩ := Option.map_eq_some_iff.1 hv'
      obtain ⟨ht, hne⟩ := htag v hv
      obtain ⟨rfl, o, h3, h4, h5, -⟩ := hvar v hv
      obtain ⟨ys, h6, h7, -⟩ := (hI.valid _ o h3).content
      refine ⟨⟨ys, ?_⟩, ?_, ?_⟩
      · rw [ht]; exact heap_isVec hI h3 rfl h4 h5 h6 h7
      · rw [esh]; dsimp only [place]
        rw [ht]; exact hne
      · have := (hI.valid _ o h3).max
        rw [h4] at this; exact this
  exact ⟨hr'', hb, C87_call M (withTags w tg c) w.st hr' hI.sound hl hb⟩

theorem heap_borrows (hI : Inv M.P w) {x : Nat} {α : Type} {c : HeapCall α} (hr : c.RunsOn M) (hs : w.Holds c.shared.ptr c.shared.len)
    (hsome : ∀ v, c.vec = some v → v.buf = x ∧ c.shared.ptr.buf ≠ x ∧ ∃ t, w.vars x = some (.vec ⟨t, v.len, v.cap⟩) ∨ AppendsText c ∧ w.vars x = some (.string ⟨t, v.len, v.cap⟩)) :
    (untagHeap w.st (w.argsHeap c)).RunsOn M ∧ (untagHeap w.st (w.argsHeap c)).Borrows M.P w.st.mem ∧
      ObeysHeap M.P w.st (w.argsHeap c) (((untagHeap w.st (w.argsHeap c)).prog M.P).run w.st.mem) := by
  refine heap_borrows' (tg := w.tag) hI hr (source_holds hI hs) (fun v hv => let ⟨h1, _, h2⟩ := hsome v hv; ⟨h1, h2⟩) fun v hv => ⟨rfl, fun e => ?_⟩
  obtain ⟨os, hs1, -⟩ := hs
  obtain ⟨-, o, h3, -⟩ := heap_var hsome v hv
  rw [tag_eq hs1, tag_eq h3] at e
  exact (hsome v hv).2.1 (hI.apart _ _ _ _ hs1 h3 e)

theorem heap_fine' (hI : Inv M.P w) {x : Nat} {α : Type} {c : HeapCall α} {tg : Nat → Nat} (hr : c.RunsOn M) (hs : Source M.P w.st ⟨tg c.shared.ptr.buf, c.shared.ptr.off⟩ c.shared.len) (hnone : c.vec = none → w.vars x = none)
    (hsome : ∀ v, c.vec = some v → v.buf = x ∧ ∃ t, w.vars x = some (.vec ⟨t, v.len, v.cap⟩) ∨ AppendsText c ∧ w.vars x = some (.string ⟨t, v.len, v.cap⟩))
    (htag : ∀ v, c.vec = some v → tg x = w.tag x ∧ w.st.home (tg c.shared.ptr.buf) ≠ w.st.home (w.tag x))
    (hK : ∀ s' G, AfterCall w.st s' G → (∀ b i, b < w.st.mem.nbuf → (∀ o, w.vars x = some o → w.st.home (ownerOf o).1.buf ≠ b) →
      G b i = .none ∨ In (place w.st ⟨tg c.shared.ptr.buf, c.shared.ptr.off⟩) c.shared.len b i ∧ G b i = .shared (tg c.shared.ptr.buf)) →
      ∀ y o, y ≠ x → w.vars y = some o → StillOwn s' (ownerOf o).1.buf (w.st.home (ownerOf o).1.buf) (ownerOf o).2) :
    FineHeap M.P w x ⟨tg c.shared.ptr.buf, c.shared.ptr.off⟩ c.shared.len (w.after ((withTags w tg c).borrow M.P w.st) fun r => w.set x (some (result (w.vars x) c r))) := by
  have evec := plain_vec (w := w) tg c
  obtain ⟨hr'', hb, h⟩ := heap_borrows' hI hr hs hsome htag
  have hvar := heap_var' hsome
  have htg : ∀ v, c.vec = some v → ∀ o, w.vars x = some o → tg v.buf = (ownerOf o).1.buf := fun v hv o ho => by
    rw [(hsome v hv).1, (htag v hv).1]; exact tag_eq ho
  -- what the loans are
  have hloan : ∀ t b i, b < w.st.mem.nbuf → (∀ o, w.vars x = some o → w.st.home (ownerOf o).1.buf ≠ b) →
      heapLoans w.st (withTags w tg c) t b i = .none ∨ In (place w.st ⟨tg c.shared.ptr.buf, c.shared.ptr.off⟩) c.shared.len b i ∧ heapLoans w.st (withTags w tg c) t b i = .shared (tg c.shared.ptr.buf) := fun t b i h1 h2 => by
    unfold heapLoans
    rw [withTags_shared, withTags_vec]
    dsimp only
    split
    · rename_i hin; exact .inr ⟨hin, rfl⟩
    · rw [if_neg (by omega)]
      cases hv : c.vec with
      | none => exact .inl rfl
      | some v =>
        obtain ⟨-, o, h3, -⟩ := hvar v hv
        refine .inl (if_neg fun h => h2 o h3 ?_)
        have := h.1
        dsimp only at this
        rw [this, htg v hv o h3]
  have hmem : ∀ s' : State, ((∃ r, ((untagHeap w.st (withTags w tg c)).prog M.P).run w.st.mem = .ok r s'.mem) ∨ ((untagHeap w.st (withTags w tg c)).prog M.P).run w.st.mem = .err s'.mem) →
      MemAfter w.st.mem s'.mem fun b _ => w.st.mem.nbuf ≤ b ∨ ∃ o, w.vars x = some o ∧ b = w.st.home (ownerOf o).1.buf := fun s' h => by
    refine (Prog.run_after ((untagHeap w.st (withTags w tg c)).inside M w.st.mem hr'' hb) h).mono fun b i h => h.imp id fun ⟨v', h1, h2⟩ => ?_
    rw [evec] at h1
    obtain ⟨v, hv, rfl⟩ := Option.map_eq_some_iff.1 h1
    obtain ⟨-, o, h3, -⟩ := hvar v hv
    refine ⟨o, h3, ?_⟩
    dsimp only at h2
    rw [h2, htg v hv o h3]
  unfold ObeysHeap at h
  split at h
  · rename_i r s' r' m e e'
    rw [e]
    obtain ⟨rfl, rfl, hA, hO, hF, hW⟩ := h
    rw [owner_withTags tg (w.vars x)] at hA hO hF hW
    have hm := hmem s' (.inl ⟨_, e'⟩)
    obtain ⟨xs, hl, hx⟩ := hb.1
    have hc := HeapCall.content M _ w.st.mem hr'' hb hl hx e' (w.vars x)
    have hwhere : w.st.mem.nbuf ≤ s'.home (ownerOf (result (w.vars x) c r)).1.buf ∨
        ∃ v, c.vec = some v ∧ ∃ o, w.vars x = some o ∧ s'.home (ownerOf (result (w.vars x) c r)).1.buf = w.st.home (ownerOf o).1.buf := by
      rcases hW with ⟨h1, -⟩ | ⟨v', h1, h2⟩
      · exact .inl h1
      · rw [withTags_vec] at h1
        obtain ⟨v, hv, rfl⟩ := Option.map_eq_some_iff.1 h1
        obtain ⟨-, o, h3, -⟩ := hvar v hv
        refine .inr ⟨v, hv, o, h3, ?_⟩
        rw [h2]
        dsimp only
        rw [htg v hv o h3]
        exact hA.home _ (hI.valid _ o h3).owns.tag
    have key := hI.assign' x (some (result (w.vars x) c r)) hA hm (hK _ _ hA (hloan _)) (fun b i hb' hx => ?_) (fun y o hne hy i h => ?_) (fun o' eo => ?_) (fun b h1 h2 h3 => ?_) (fun o ho h1 => ?_)
    · exact ⟨key.1, key.2, ⟨_, hA, hm, hloan _⟩, fun y hy => if_neg hy⟩
    · rcases hloan (ownerOf (result (w.vars x) c r)).1.buf b i hb' hx with h | ⟨-, h⟩ <;> rw [h] <;> nofun
    · rcases h with h | ⟨o', h1, h⟩
      · have := (hI.valid y o hy).owns.exists_; omega
      · exact hne (hI.apart _ _ _ _ hy h1 h)
    · cases eo
      refine ⟨⟨hO, ?_, ?_⟩, hwhere.imp id fun ⟨v, hv, o, h1, h2⟩ => ⟨o, h1, h2⟩⟩
      · rw [← hO.size]
        rcases hwhere with h1 | ⟨v, hv, o, h1, h2⟩
        · exact HeapCall.max_size M _ w.st.mem hr'' hb (.inl ⟨_, e'⟩) h1 hO.exists_
        · have hV := hI.valid _ o h1
          rw [h2, hm.size _ hV.owns.exists_, hV.owns.size]; exact hV.max
      · obtain ⟨q1, q2, q3⟩ := owner_rvec (result (w.vars x) c r)
        have hp : place s' (ownerOf (result (w.vars x) c r)).1 = ⟨s'.home (result (w.vars x) c r).rvec.buf, 0⟩ := by
          unfold place; rw [q1, hO.start]
        rw [hp, q3]
        unfold HeapCall.Content at hc
        rw [evec, result_move, result_withTags, rvec_move] at hc
        cases hv : c.vec with
        | none =>
          rw [hv] at hc
          obtain ⟨ys, -, ⟨-, -, -, h1, h2⟩, -, h3⟩ := hc
          exact ⟨ys, h1.symm, h2, fun h => h3 ((text_move _ _).2 h)⟩
        | some v =>
          rw [hv] at hc
          obtain ⟨h0, o, h1, h2, h3, h8⟩ := hvar v hv
          obtain ⟨prev, q4, q5, q6⟩ := (hI.valid _ o h1).content
          have hvec := heap_isVec hI h1 h0 h2 h3 q4 q5
          have ht : tg v.buf = w.tag v.buf := by rw [h0]; exact (htag v hv).1
          rw [← ht] at hvec
          obtain ⟨res, -, -, ⟨-, -, h4, h5⟩, h6⟩ := hc prev hvec
          refine ⟨prev ++ res.getD [], h4.symm, h5, fun h => ?_⟩
          obtain ⟨h9, h10⟩ := h8 r h
          exact (q6 h10).append (h6 ((appends_args _ _).2 ((appends_args _ _).2 h9)))
    · exact hF b h1 h2 (Ne.symm (h3 _ rfl))
    · cases hv : c.vec with
      | none => rw [hnone hv] at ho; cases ho
      | some v =>
        rcases hW with ⟨-, h2⟩ | ⟨v', h2, h3⟩
        · have := h2 { v with buf := tg v.buf } (by rw [withTags_vec, hv]; rfl)
          dsimp only at this
          rwa [htg v hv o ho] at this
        · exfalso
          rw [withTags_vec, hv] at h2
          cases h2
          refine h1 _ rfl ?_
          rw [h3]
          dsimp only
          rw [htg v hv o ho]
          exact hA.home _ (hI.valid _ o ho).owns.tag
  · rename_i s' m e e'
    rw [e]
    obtain ⟨rfl, hA, hv, hF⟩ := h
    rw [withTags_vec] at hv
    have hv : c.vec = none := Option.map_eq_none_iff.1 hv
    have hm := hmem s' (.inr e')
    have : w.vars = w.set x none := by
      funext y
      unfold World.set
      split
      · rename_i hy; rw [hy, hnone hv]
      · rfl
    have key := hI.assign' x none hA hm (hK _ _ hA (hloan _)) (fun b i hb' hx => ?_) (fun y o hne hy i h => ?_) (fun _ eo => nomatch eo) (fun b h1 h2 _ => hF b h1 h2) (fun o ho => ?_)
    · rw [← this] at key
      exact ⟨key.1, key.2, ⟨_, hA, hm, hloan _⟩, fun _ _ => rfl⟩
    · rcases hloan w.st.next b i hb' hx with h | ⟨-, h⟩ <;> rw [h] <;> nofun
    · rcases h with h | ⟨o', h1, h⟩
      · have := (hI.valid y o hy).owns.exists_; omega
      · exact hne (hI.apart _ _ _ _ hy h1 h)
    · rw [hnone hv] at ho; cases ho
  · rename_i e _; rw [e]; trivial
  · exact h.elim

theorem heap_fine (hI : Inv M.P w) {x : Nat} {α : Type} {c : HeapCall α} (hr : c.RunsOn M) (hs : w.Holds c.shared.ptr c.shared.len) (hnone : c.vec = none → w.vars x = none)
    (hsome : ∀ v, c.vec = some v → v.buf = x ∧ c.shared.ptr.buf ≠ x ∧ ∃ t, w.vars x = some (.vec ⟨t, v.len, v.cap⟩) ∨ AppendsText c ∧ w.vars x = some (.string ⟨t, v.len, v.cap⟩)) :
    Fine M.P w (· = x) (exec M.P w (.heap x c)) := by
  obtain ⟨os, hs1, -⟩ := id hs
  have h := heap_fine' (tg := w.tag) hI hr (source_holds hI hs) hnone (fun v hv => let ⟨h1, _, h2⟩ := hsome v hv; ⟨h1, h2⟩) (fun v hv => ⟨rfl, fun e => by
    obtain ⟨-, o, h3, -⟩ := heap_var hsome v hv
    rw [tag_eq hs1, tag_eq h3] at e
    exact (hsome v hv).2.1 (hI.apart _ _ _ _ hs1 h3 e)⟩) fun s' G hA hG y o hne hy => by
      refine Own.still hA (hI.valid y o hy).owns fun i _ => ?_
      rcases hG _ i (hI.valid y o hy).owns.exists_ (fun o' h' e => hne (hI.apart _ _ _ _ hy h' e.symm)) with h | ⟨hin, h⟩
      · exact .inl h
      · exact .inr (.inl (by rw [h, (loan_own hI hy hs1 hin).2]))
  show Fine M.P w (· = x) (w.after ((withTags w w.tag c).borrow M.P w.st) fun r => w.set x (some (result (w.vars x) c r)))
  exact h.fine

theorem move_fine (hI : Inv M.P w) {x y : Nat} (hy : w.vars y = none) : Fine M.P w (fun z => z = x ∨ z = y) (exec M.P w (.move x y)) := by
  have hv : ∀ z o, (if z = y then w.vars x else if z = x then none else w.vars z) = some o → ∃ z', w.vars z' = some o ∧ z' = if z = y then x else z := fun z o h => by
    split at h
    · exact ⟨x, h, by rw [if_pos (by assumption)]⟩
    · split at h
      · cases h
      · exact ⟨z, h, by rw [if_neg (by assumption)]⟩
  refine ⟨⟨hI.sound, fun z o h => ?_, fun z z' o o' h h' e => ?_, fun b hb hf => hI.freed b hb fun z o h => ?_⟩, fun z o hz h => ⟨?_, fun _ h => h⟩⟩
  · obtain ⟨z', h1, -⟩ := hv z o h
    exact hI.valid z' o h1
  · dsimp only at h h'
    obtain ⟨a, h1, h2⟩ := hv z o h
    obtain ⟨a', h1', h2'⟩ := hv z' o' h'
    have e := hI.apart _ _ _ _ h1 h1' e
    subst h2 h2'
    split at e <;> split at e
    · rename_i ha hb; rw [ha, hb]
    · rename_i ha hb
      rw [if_neg hb, if_pos e.symm] at h'; cases h'
    · rename_i ha hb
      rw [if_neg ha, if_pos e] at h; cases h
    · exact e
  · by_cases hz : z = x
    · refine hf y o ?_
      dsimp only
      rw [if_pos rfl, ← hz]; exact h
    · refine hf z o ?_
      dsimp only
      rw [if_neg (fun e => by rw [e, hy] at h; cases h), if_neg hz]; exact h
  · dsimp only
    rw [if_neg fun e => hz (.inr e), if_neg fun e => hz (.inl e)]; exact h

/-- A step that changes only what is said of the memory a variable owns. -/
theorem Inv.recast {P : Plat} (hI : Inv P w) (x : Nat) {f : Owned → Owned} (hf : ∀ o, w.vars x = some o → ownerOf (f o) = ownerOf o) (hv : ∀ o, w.vars x = some o → Valid P w.st (f o)) :
    Inv P ⟨w.set x ((w.vars x).map f), w.st⟩ ∧ Keeps w ⟨w.set x ((w.vars x).map f), w.st⟩ (· = x) := by
  refine ⟨?_, fun y o hy h => ⟨(if_neg hy).trans h, fun _ h => h⟩⟩
  have hset : ∀ y o, w.set x ((w.vars x).map f) y = some o → ∃ o', w.vars y = some o' ∧ ownerOf o = ownerOf o' ∧ Valid P w.st o := fun y o h => by
    unfold World.set at h
    split at h
    · rename_i e
      obtain ⟨o', h1, rfl⟩ := Option.map_eq_some_iff.1 h
      exact ⟨o', by rw [e]; exact h1, hf o' h1, hv o' h1⟩
    · exact ⟨o, h, rfl, hI.valid y o h⟩
  refine ⟨hI.sound, fun y o h => let ⟨_, _, _, hV⟩ := hset y o h; hV, fun y y' o o' h h' e => ?_, fun b hb hfr => hI.freed b hb fun y o h => ?_⟩
  · obtain ⟨a, h1, h2, -⟩ := hset y o h
    obtain ⟨a', h1', h2', -⟩ := hset y' o' h'
    dsimp only at e
    rw [h2, h2'] at e
    exact hI.apart _ _ _ _ h1 h1' e
  · by_cases hy : y = x
    · subst hy
      have := hfr y (f o) (by dsimp only; unfold World.set; rw [if_pos rfl, h]; rfl)
      dsimp only at this
      rwa [hf o h] at this
    · exact hfr y o (by dsimp only; unfold World.set; rw [if_neg hy]; exact h)

theorem truncate_fine (hI : Inv M.P w) {x n : Nat} {v : RVec} (hx : w.vars x = some (.vec v)) : Fine M.P w (· = x) (exec M.P w (.truncate x n)) := by
  refine hI.recast x (fun o ho => ?_) (fun o ho => ?_) <;> (rw [hx] at ho; cases ho)
  · rfl
  · obtain ⟨h1, h2, ys, h3, h4, -⟩ := hI.valid x _ hx
    refine ⟨h1, h2, ys.take n, by rw [List.length_take, h3]; rfl, ?_, fun h => h.elim⟩
    refine ⟨?_, fun i hi => ?_⟩
    · have h5 := List.length_take_le' n ys
      exact Nat.le_trans (Nat.add_le_add_left h5 _) h4.1
    · rw [List.getElem_take]
      exact h4.2 i (by rw [List.length_take] at hi; omega)

theorem intoBytes_fine (hI : Inv M.P w) {x : Nat} : Fine M.P w (· = x) (exec M.P w (.intoBytes x)) := by
  refine hI.recast x (fun o _ => by cases o <;> rfl) (fun o ho => ?_)
  obtain ⟨h1, h2, ys, h3, h4, -⟩ := hI.valid x _ ho
  cases o <;> exact ⟨h1, h2, ys, h3, h4, fun h => h.elim⟩

/-- Every step of a client keeps the invariant. -/
theorem step_fine (hI : Inv M.P w) {op : Op} (h : Legal M w op) : Fine M.P w (Changes · op) (exec M.P w op) := by
  cases op with
  | new x text bs cap => obtain ⟨h1, h2, h3, h4⟩ := h; exact new_fine hI h1 h2 h3 h4
  | read x off n => exact read_fine hI h
  | write x off bs => obtain ⟨o, h1, h2, h3⟩ := h; exact write_fine hI h1 h2 h3
  | call c => obtain ⟨h1, h2, ⟨o, h3, h4, h5⟩, h6, h7⟩ := h; exact call_fine hI h1 h2 h3 h4 h5 h6 h7
  | heap x c =>
    obtain ⟨h1, h2, h3⟩ := h
    exact heap_fine hI h1 h2 (fun e => by rw [e] at h3; exact h3) (fun v e => by rw [e] at h3; exact h3)
  | move x y => exact move_fine hI h.2
  | truncate x n => obtain ⟨v, h⟩ := h; exact truncate_fine hI h
  | intoBytes x => exact intoBytes_fine hI
  | drop x => obtain ⟨o, h⟩ := h; exact drop_fine hI h

end Simd.Client
