import Verif.Spec.Store
import Verif.Props.CallMeans
import Verif.Props.Client
/-
From the memory of a program to what its variables hold.
-/
namespace Simd.Client
open Borrow Spec

variable {M : Machine} {w w' : World} {a a' : Store}

theorem reads_slice {m : Mem} {p : Ptr} {ys : List Byte} (h : Reads m p ys) {k n : Nat} (hn : k + n ≤ ys.length) : Reads m ⟨p.buf, p.off + k⟩ ((ys.drop k).take n) := by
  have hl : ((ys.drop k).take n).length = n := by rw [List.length_take, List.length_drop]; omega
  refine ⟨?_, fun i hi => ?_⟩
  · have := h.1
    rw [hl]; show p.off + k + n ≤ m.size p.buf; omega
  · rw [hl] at hi
    rw [List.getElem_take, List.getElem_drop, show (⟨p.buf, p.off + k⟩ : Ptr).off + i = p.off + (k + i) by show p.off + k + i = _; omega]
    exact h.2 (k + i) (by omega)

theorem Shows.holds (h : Shows w a) {x : Nat} {o : Owned} (hx : w.vars x = some o) : ∃ ty ys, a x = some (ty, ys) ∧ o.HasTy ty ∧ w.Contains o ys := by
  rcases h x with ⟨h1, -⟩ | ⟨o', ty, ys, h1, h2, h3⟩
  · rw [hx] at h1; cases h1
  · rw [hx] at h1; cases h1; exact ⟨ty, ys, h2, h3⟩

theorem Shows.gone (h : Shows w a) {x : Nat} (hx : w.vars x = none) : a x = none := by
  rcases h x with ⟨-, h1⟩ | ⟨o', ty, ys, h1, -⟩
  · exact h1
  · rw [hx] at h1; cases h1

/-- What the lent bytes are. -/
theorem Shows.slice (hI : Inv M.P w) (h : Shows w a) {p : Ptr} {n : Nat} (hp : w.Holds p n) : ∃ xs, xs.length = n ∧ a.Slice p n xs ∧ Reads w.st.mem (place w.st ⟨w.tag p.buf, p.off⟩) xs := by
  obtain ⟨o, h1, h2⟩ := hp
  obtain ⟨ty, ys, h3, -, h4, h5⟩ := h.holds h1
  refine ⟨_, ?_, ⟨ty, ys, h3, by omega, rfl⟩, ?_⟩
  · rw [List.length_take, List.length_drop]; omega
  · have := reads_slice h5 (k := p.off) (n := n) (by omega)
    have e : (place w.st (ownerOf o).1).off = 0 := (hI.valid _ o h1).owns.start
    rw [e, Nat.zero_add] at this
    unfold place
    rw [tag_eq h1]
    exact this

/-- A variable that is not changed shows what it showed. -/
theorem Shows.kept (h : Shows w a) {X : Nat → Prop} (hk : Keeps w w' X) {x : Nat} (hX : ¬ X x) (hn : w.vars x = none → w'.vars x = none) {b : Store} (hb : b x = a x) :
    w'.vars x = none ∧ b x = none ∨ ∃ o ty ys, w'.vars x = some o ∧ b x = some (ty, ys) ∧ o.HasTy ty ∧ w'.Contains o ys := by
  rw [hb]
  rcases h x with ⟨h1, h2⟩ | ⟨o, ty, ys, h1, h2, h3, h4, h5⟩
  · exact .inl ⟨hn h1, h2⟩
  · obtain ⟨h6, h7⟩ := hk x o hX h1
    exact .inr ⟨o, ty, ys, h6, h2, h3, h4, h7 ys h5⟩

/-- After an assignment to one variable. -/
theorem Shows.assign (h : Shows w a) {x : Nat} {no : Option Owned} (hk : Keeps w w' (· = x)) (hv : w'.vars = w.set x no) {v : Option (EncodeTy × List Byte)}
    (hx : no = none ∧ v = none ∨ ∃ o ty ys, no = some o ∧ v = some (ty, ys) ∧ o.HasTy ty ∧ w'.Contains o ys) : Shows w' (a.set x v) := fun y => by
  by_cases e : y = x
  · subst e
    have e1 : w'.vars y = no := by rw [hv]; exact if_pos rfl
    have e2 : a.set y v y = v := if_pos rfl
    rw [e1, e2]; exact hx
  · exact h.kept hk e (fun hn => by rw [hv]; exact (if_neg e).trans hn) (if_neg e)

theorem function_untag (s : State) {α : Type} (c : Call α) : function (untag s (w.args c)) = function c := by cases c <;> rfl
theorem touched_untag (s : State) {α : Type} (c : Call α) (xs : List Byte) (d : Nat) (res : Option (List Byte)) : touched xs d res (untag s (w.args c)) = touched xs d res c := by cases c <;> rfl
theorem input_untag (s : State) {α : Type} (c : Call α) : input (untag s (w.args c)) = (place s ⟨w.tag (input c).1.buf, (input c).1.off⟩, (input c).2) := by cases c <;> rfl
theorem input_cases {α : Type} (c : Call α) : InPlace c ∧ input c = c.exclusive ∨ input c = c.shared := by
  cases c <;> first | exact .inr rfl | exact .inl ⟨trivial, rfl⟩

/-- What the program sees of the result. -/
theorem call_sees (s : State) {s' : State} {α : Type} {c : Call α} {xs ys : List Byte} {r r' : α} (h : CallReturns xs ys (untag s (w.args c)) r') (h' : SameResult s' (w.args c) r r') :
    CallSees xs ys (view c r) c := by
  cases c
  case isAscii => exact ⟨r, rfl, by rw [show r = r' from h']; exact h⟩
  case isUtf32le => exact ⟨r, rfl, by rw [show r = r' from h']; exact h⟩
  case swap => exact ⟨_, rfl, by rw [show r.len = r'.len from (congrArg Slice.len h'.1).symm]; exact h.2⟩
  all_goals first
    | rfl
    | exact congrArg Seen.length ((congrArg Slice.len h'.1).symm.trans (congrArg Slice.len h))

/-- What a call with slices leaves in the variable. -/
theorem call_value (hI : Inv M.P w) (hs : Shows w a) {α : Type} {c : Call α} (h : Legal M w (.call c)) (he : exec M.P w (.call c) = .ok w') (hI' : Inv M.P w') (hk : Keeps w w' (Changes · (.call c))) :
    ∃ a', Shows w' a' ∧ Step a (seen M.P w (.call c)) a' (.call c) := by
  obtain ⟨hr, h1, ⟨o, h2, h3, h4⟩, h5, h6⟩ := h
  obtain ⟨hr', hb, hob⟩ := call_borrows hI hr h1 h2 h3 h5 h6
  have hin : w.Holds (input c).1 (input c).2 := by
    rcases input_cases c with ⟨hp, e⟩ | e <;> rw [e]
    · exact h5 hp
    · exact h1
  obtain ⟨xs, hl, hsl, hx⟩ := hs.slice hI hin
  have hc := C90_call M (untag w.st (w.args c)) w.st.mem hr' hb (xs := xs) (by rw [input_untag]; exact hl) (by rw [input_untag]; exact hx)
  have eex : (untag w.st (w.args c)).exclusive = (place w.st ⟨w.tag c.exclusive.1.buf, c.exclusive.1.off⟩, c.exclusive.2) := by rw [untag_exclusive, args_exclusive]
  obtain ⟨res, hm, hc⟩ := hc
  rw [touched_untag, eex] at hc
  rw [eex] at hm
  have hm : CallMeans xs c.exclusive.2 res c := by
    have := (means_function _ _ _ _).1 hm
    rw [function_untag] at this
    exact (means_function _ _ _ _).2 this
  have hO := (hI.valid _ o h2).owns
  have est : (place w.st (ownerOf o).1).off = 0 := hO.start
  -- What is left to show, whichever way the call ends.
  have key : ∀ s', w' = ⟨w.vars, s'⟩ → AfterCall w.st s' (loans w.st (w.args c)) → OnlyChanged w.st.mem s'.mem (place w.st ⟨w.tag c.exclusive.1.buf, c.exclusive.1.off⟩) (touched xs c.exclusive.2 res c) →
      Reads s'.mem (place w.st ⟨w.tag c.exclusive.1.buf, c.exclusive.1.off⟩) (res.getD []) → SeesResult xs (seen M.P w (.call c)) c res → ∃ a', Shows w' a' ∧ Step a (seen M.P w (.call c)) a' (.call c) := fun s' e hA h7 h8 hv => by
    subst e
    obtain ⟨ty, ys, h9, h10, h11, h12⟩ := hs.holds h2
    obtain ⟨ys', h13, h14, -⟩ := (hI'.valid _ o h2).content
    have hp : place s' (ownerOf o).1 = place w.st (ownerOf o).1 := by unfold place; rw [hA.home _ hO.tag]
    refine ⟨a.set c.exclusive.1.buf (.some (ty, ys')), fun y => ?_, xs, res, hsl, hm, hv, ty, ys, ys', h9, rfl, h13.trans h11.symm, fun k hk1 hk2 => ?_, fun j hj1 hj2 => ?_⟩
    · by_cases ey : y = c.exclusive.1.buf
      · subst ey
        exact .inr ⟨o, ty, ys', h2, if_pos rfl, h10, h13, h14⟩
      · exact hs.kept hk (fun hX => ey hX.1) (fun h => h) (if_neg ey)
    · have h14' := h14
      rw [hp] at h14'
      have hlen : ys'.length = ys.length := h13.trans h11.symm
      have q1 := h14'.2 k (by omega)
      have q2 := h12.2 k hk1
      rw [h7.2.2.2 _ _ fun i hi hn => hk2 ?_, q2] at q1
      · rw [List.getElem?_eq_getElem hk1, List.getElem?_eq_getElem (by omega)]; exact q1.symm
      · have := hn.2
        rw [est] at this
        simp only [place] at this
        omega
    · have h14' := h14
      rw [hp] at h14'
      have hlen : ys'.length = ys.length := h13.trans h11.symm
      have q1 := h14'.2 (c.exclusive.1.off + j) (by omega)
      have q2 := h8.2 j hj1
      rw [est, Nat.zero_add] at q1
      have eb : (place w.st (ownerOf o).1).buf = (place w.st ⟨w.tag c.exclusive.1.buf, c.exclusive.1.off⟩).buf := by unfold place; rw [tag_eq h2]
      rw [eb] at q1
      rw [List.getElem?_eq_getElem hj1, List.getElem?_eq_getElem (by omega)]
      exact q1.symm.trans q2
  have he : w.after ((w.args c).borrow M.P w.st) (fun _ => w.vars) = .ok w' := he
  unfold Obeys at hob
  split at hob
  · rename_i r s' r' m e e'
    rw [e] at he; rw [e'] at hc
    injection he with he
    obtain ⟨rfl, hA, hsr⟩ := hob
    obtain ⟨ys, rfl, hret, -, q1, q2⟩ := hc
    refine key s' he.symm hA q2 q1 ?_
    have ev : seen M.P w (.call c) = view c r := by
      show (match (w.args c).borrow M.P w.st with | .ok r _ => view c r | .err _ => .failed | _ => .nothing) = _
      rw [e]
    rw [ev]
    exact call_sees _ hret hsr
  · rename_i s' m e e'
    rw [e] at he; rw [e'] at hc
    injection he with he
    obtain ⟨rfl, hA⟩ := hob
    obtain ⟨rfl, q2⟩ := hc
    have ev : seen M.P w (.call c) = .failed := by
      show (match (w.args c).borrow M.P w.st with | .ok r _ => view c r | .err _ => .failed | _ => .nothing) = _
      rw [e]
    refine key s' he.symm hA q2 ⟨?_, fun i hi => absurd hi (by simp)⟩ ev
    have : Writable w.st.mem (untag w.st (w.args c)).exclusive.1 (untag w.st (w.args c)).exclusive.2 := hb.2.1
    rw [eex] at this
    unfold Writable at this
    rw [q2.2.1]
    simp only [Option.getD_none, List.length_nil]
    dsimp only at this ⊢
    omega
  · rename_i e _; rw [e] at he; cases he
  · exact hob.elim

/-- What writing leaves in the variable. -/
theorem write_value (hI : Inv M.P w) (hs : Shows w a) {x off : Nat} {bs : List Byte} (h : Legal M w (.write x off bs)) (he : exec M.P w (.write x off bs) = .ok w') (hk : Keeps w w' (· = x)) :
    ∃ a', Shows w' a' ∧ Step a .nothing a' (.write x off bs) := by
  obtain ⟨o, h1, h2, ht⟩ := h
  have hle := len_le hI h1
  have ho := (hI.valid x o h1).owns
  have h := store_sim (E := fun _ => False) (part_mutable hI h1 (off := off) (n := bs.length) (by omega)) (by
    have := ho.size
    dsimp only
    rw [tag_eq h1, this]; omega)
  have he : w.after (prog (storeBytes ⟨w.tag x, off⟩ bs) w.st) (fun _ => w.vars) = .ok w' := he
  obtain ⟨ty, ys, h3, h4, h5, h6⟩ := hs.holds h1
  have est : (place w.st (ownerOf o).1).off = 0 := ho.start
  unfold Sim at h
  split at h
  · rename_i _ s' _ m e _
    rw [e] at he
    injection he with he
    obtain ⟨-, S, rfl, -, -⟩ := h
    subst he
    refine ⟨_, hs.assign (no := .some o) hk (funext fun y => ?_) (.inr ⟨o, ty, _, rfl, rfl, h4, ?_, ?_, ?_⟩), rfl, ty, ys, h3, rfl⟩
    · show w.vars y = if y = x then _ else _
      split
      · rename_i e; rw [e, h1]
      · rfl
    · simp only [List.length_append, List.length_take, List.length_drop]; omega
    · have := h6.1
      show (place w.st (ownerOf o).1).off + _ ≤ w.st.mem.size (place w.st (ownerOf o).1).buf
      simp only [List.length_append, List.length_take, List.length_drop]; omega
    · intro i hi
      have hi' : i < ys.length := by simp only [List.length_append, List.length_take, List.length_drop] at hi; omega
      show (w.st.mem.write (place w.st ⟨w.tag x, off⟩) bs).cell (place w.st (ownerOf o).1).buf ((place w.st (ownerOf o).1).off + i) = _
      have hc := h6.2 i hi'
      rw [est, Nat.zero_add] at hc ⊢
      show (if w.st.home (ownerOf o).1.buf = w.st.home (w.tag x) ∧ off ≤ i ∧ i < off + bs.length then bs[i - off]? else w.st.mem.cell (place w.st (ownerOf o).1).buf i) = _
      rw [tag_eq h1]
      by_cases hin : off ≤ i ∧ i < off + bs.length
      · rw [if_pos ⟨rfl, hin⟩, List.getElem_append_left (by simp only [List.length_append, List.length_take]; omega), List.getElem_append_right (by simp only [List.length_take]; omega),
          List.getElem?_eq_getElem (by omega)]
        congr 2
        simp only [List.length_take]; omega
      · rw [if_neg fun h => hin h.2, hc]
        by_cases hlt : i < off
        · rw [List.getElem_append_left (by simp only [List.length_append, List.length_take]; omega), List.getElem_append_left (by simp only [List.length_take]; omega), List.getElem_take]
        · rw [List.getElem_append_right (by simp only [List.length_append, List.length_take]; omega), List.getElem_drop]
          congr 2
          simp only [List.length_append, List.length_take]; omega
  · exact h.2.elim
  · rename_i e _; rw [e] at he; cases he
  · exact h.elim

theorem hasTy_made {o : Owned} {α : Type} {c : HeapCall α} (hv : c.vec = none) (h : HeapTy o c) : o.HasTy (madeTy c) := by
  cases c <;> first | exact h | cases hv

theorem viewHeap_eq (o : Owned) {α : Type} (c : HeapCall α) (r : α) : (Failed c r → viewHeap o c r = .failed) ∧ (¬ Failed c r → viewHeap o c r = .length (len o)) := by
  cases c <;> first
    | exact ⟨False.elim, fun _ => rfl⟩
    | (obtain ⟨v, e⟩ := r
       cases e
       · exact ⟨fun _ => rfl, fun h => absurd rfl h⟩
       · exact ⟨nofun, fun _ => rfl⟩)

theorem failed_untag (s : State) {α : Type} (c : HeapCall α) (r : α) : Failed (untagHeap s (w.argsHeap c)) r ↔ Failed c r := by cases c <;> exact Iff.rfl

/-- What the program sees of a call that allocates. -/
theorem heap_sees (hI : Inv M.P w) {x : Nat} {α : Type} {c : HeapCall α} (h : Legal M w (.heap x c)) (he : exec M.P w (.heap x c) = .ok w') {xs : List Byte}
    (hl : xs.length = c.shared.len) (hx : Reads w.st.mem (place w.st ⟨w.tag c.shared.ptr.buf, c.shared.ptr.off⟩) xs) {res : Option (List Byte)} (hm : HeapMeans xs res c) :
    (res = none → seen M.P w (.heap x c) = .failed) ∧ (res ≠ none → ∃ o, w'.vars x = some o ∧ seen M.P w (.heap x c) = .length (len o)) := by
  obtain ⟨hr, hs, hvar⟩ := h
  have hsome : ∀ v, c.vec = some v → v.buf = x ∧ c.shared.ptr.buf ≠ x ∧ ∃ t, w.vars x = some (.vec ⟨t, v.len, v.cap⟩) ∨ AppendsText c ∧ w.vars x = some (.string ⟨t, v.len, v.cap⟩) :=
    fun v e => by rw [e] at hvar; exact hvar
  obtain ⟨hr'', hb, h⟩ := heap_borrows hI hr hs hsome
  have esh := heap_shared (w := w) c
  have he : w.after ((w.argsHeap c).borrow M.P w.st) (fun r => w.set x (some (result (w.vars x) c r))) = .ok w' := he
  have es : seen M.P w (.heap x c) = match (w.argsHeap c).borrow M.P w.st with
    | .ok r _ => viewHeap (result (w.vars x) c r) c r
    | .err _ => .failed
    | _ => .nothing := rfl
  rw [es]
  unfold ObeysHeap at h
  split at h
  · rename_i r s' r' m e e'
    rw [e] at he ⊢
    injection he with he
    subst he
    obtain ⟨rfl, rfl, -, hO, -, -⟩ := h
    have hc := HeapCall.content M _ w.st.mem hr'' hb (xs := xs) (by rw [esh]; exact hl) (by rw [esh]; exact hx) e' (w.vars x)
    unfold HeapCall.Content at hc
    rw [heap_vec] at hc
    have hf : Failed c r ↔ res = none := by
      cases hv : c.vec with
      | none =>
        rw [hv] at hc
        obtain ⟨ys, h1, -⟩ := hc
        have := hm.unique ((means_untag _ _ _ _).1 h1)
        subst this
        exact ⟨fun hf => (by cases c <;> first | exact hf.elim | cases hv), nofun⟩
      | some v =>
        rw [hv] at hc
        obtain ⟨q0, o, q1, q2, q3, -⟩ := heap_var hsome v hv
        obtain ⟨ps, p1, p2, -⟩ := (hI.valid x o q1).content
        obtain ⟨res', h1, h2, -⟩ := hc ps (heap_isVec hI q1 q0 q2 q3 p1 p2)
        have := hm.unique ((means_untag _ _ _ _).1 h1)
        subst this
        refine .trans ?_ h2
        cases c <;> exact Iff.rfl
    exact ⟨fun h => (viewHeap_eq _ c r).1 (hf.2 h), fun h => ⟨_, if_pos rfl, (viewHeap_eq _ c r).2 fun h' => h (hf.1 h')⟩⟩
  · rename_i s' m e e'
    rw [e] at he ⊢
    injection he with he
    have h1 := HeapCall.content_err M _ w.st.mem hr'' hb (xs := xs) (by rw [esh]; exact hl) (by rw [esh]; exact hx) e'
    have := hm.unique ((means_untag _ _ _ _).1 h1)
    exact ⟨fun _ => rfl, fun h => absurd this h⟩
  · rename_i e _; rw [e] at he; cases he
  · exact h.elim

/-- What a call that allocates leaves in the variable. -/
theorem heap_step (hI : Inv M.P w) (hs : Shows w a) {x : Nat} {α : Type} {c : HeapCall α} (h : Legal M w (.heap x c)) (he : exec M.P w (.heap x c) = .ok w') (hk : Keeps w w' (· = x)) :
    ∃ a', Shows w' a' ∧ Step a (seen M.P w (.heap x c)) a' (.heap x c) := by
  obtain ⟨xs, hl, hsl, hx⟩ := hs.slice hI h.2.1
  have hv := heap_value hI h he hl hx
  cases e : c.vec with
  | none =>
    rcases hv.1 e with ⟨h1, h2⟩ | ⟨ys, o, h1, h2, h3, h4⟩
    · have hx0 : w.vars x = none := by have := h.2.2; rw [e] at this; exact this
      refine ⟨a, fun y => ?_, xs, none, hsl, h1, ?_⟩
      · by_cases ey : y = x
        · rw [ey, h2]; exact .inl ⟨hx0, hs.gone hx0⟩
        · exact hs.kept hk ey (fun h => by rw [h2]; exact h) rfl
      · rw [e]; exact ⟨(heap_sees hI h he hl hx h1).1 rfl, rfl⟩
    · refine ⟨_, hs.assign hk h2 (.inr ⟨o, _, ys, rfl, rfl, hasTy_made e h3, h4⟩), xs, some ys, hsl, h1, ?_⟩
      rw [e]
      obtain ⟨o', q1, q2⟩ := (heap_sees hI h he hl hx h1).2 nofun
      rw [h2] at q1
      have q1 : some o = some o' := (if_pos rfl).symm.trans q1
      cases q1
      exact ⟨by rw [q2, h4.1], rfl⟩
  | some v =>
    obtain ⟨res, o, o', h1, h2, h3, h4, h5⟩ := hv.2 (by rw [e]; nofun)
    obtain ⟨ty, ys, h6, h7, h8⟩ := hs.holds h2
    have h9 := h5 ys h8
    have hsh := hs.assign (v := some (ty, ys ++ res.getD [])) hk h3 (.inr ⟨o', ty, _, rfl, rfl, (h4 ty).2 h7, h9⟩)
    cases res with
    | none =>
      refine ⟨_, hsh, xs, none, hsl, h1, ?_⟩
      rw [e]
      refine ⟨(heap_sees hI h he hl hx h1).1 rfl, funext fun y => ?_⟩
      show (if y = x then _ else a y) = a y
      split
      · rename_i ey; rw [ey, h6]; simp
      · rfl
    | some out =>
      refine ⟨_, hsh, xs, some out, hsl, h1, ?_⟩
      rw [e]
      obtain ⟨o1, q1, q2⟩ := (heap_sees hI h he hl hx h1).2 nofun
      rw [h3] at q1
      have q1 : some o' = some o1 := (if_pos rfl).symm.trans q1
      cases q1
      exact ⟨ty, ys, h6, by rw [q2, ← h9.1]; rfl, rfl⟩

/-- What is read. -/
theorem read_step (hI : Inv M.P w) (hs : Shows w a) {x off n : Nat} (h : Legal M w (.read x off n)) (he : exec M.P w (.read x off n) = .ok w') (hk : Keeps w w' fun _ => False) :
    ∃ a', Shows w' a' ∧ Step a (seen M.P w (.read x off n)) a' (.read x off n) := by
  obtain ⟨xs, hl, hsl, hx⟩ := hs.slice hI (p := ⟨x, off⟩) h
  obtain ⟨o, h1, h2⟩ := h
  have hle := len_le hI h1
  have er : (loadBytes (place w.st ⟨w.tag x, off⟩) n).run w.st.mem = .ok xs w.st.mem := by
    subst hl
    show (Prog.load _ _ _).run _ = _
    rw [prog_run_load, hx.has.read]; rfl
  have h := load_sim (E := fun _ => False) (part_readable hI h1 (off := off) (n := n) (by dsimp only at h2; omega)) (by rw [er]; nofun)
  have he : w.after (prog (loadBytes ⟨w.tag x, off⟩ n) w.st) (fun _ => w.vars) = .ok w' := he
  have es : seen M.P w (.read x off n) = match prog (loadBytes ⟨w.tag x, off⟩ n) w.st with
    | .ok bs _ => .bytes bs
    | _ => .nothing := rfl
  rw [er] at h
  rw [es]
  unfold Sim at h
  split at h
  · rename_i bs s' bs' m e e'
    rw [e] at he ⊢
    injection he with he
    cases e'
    obtain ⟨-, rfl, -⟩ := h
    exact ⟨a, fun y => hs.kept hk id (fun hn => by rw [← he]; exact hn) rfl, _, hsl, rfl, rfl⟩
  · rename_i e; cases e
  · rename_i e; cases e
  · exact h.elim

theorem hasTy_bytes {o : Owned} {ty : EncodeTy} (h : o.HasTy ty) : (intoBytes o).HasTy (plainTy ty) := by cases o <;> cases ty <;> first | exact h.elim | trivial

/-- A step, whatever it is. -/
theorem step_value (hI : Inv M.P w) (hs : Shows w a) {op : Op} (h : Legal M w op) (he : exec M.P w op = .ok w') : ∃ a', Shows w' a' ∧ Step a (seen M.P w op) a' op := by
  have hf := step_fine hI h
  rw [he] at hf
  obtain ⟨hI', hk⟩ := hf
  cases op with
  | new x text bs cap =>
    obtain ⟨o, s', h1, h2, h3⟩ := new_value (P := M.P) w x text h.2.1
    rw [he] at h1
    injection h1 with h1
    refine ⟨_, hs.assign (no := some o) hk (by rw [h1]) (.inr ⟨o, _, bs, rfl, rfl, ?_, h1 ▸ h3 _⟩), rfl, rfl⟩
    rw [h2]; cases text <;> trivial
  | read x off n => exact read_step hI hs h he hk
  | write x off bs => exact write_value hI hs h he hk
  | call c => exact call_value hI hs h he hI' hk
  | heap x c => exact heap_step hI hs h he hk
  | move x y =>
    injection he with he
    obtain ⟨⟨o, hx⟩, hy⟩ := h
    refine ⟨_, fun z => ?_, rfl, rfl⟩
    subst he
    show (if z = y then w.vars x else if z = x then none else w.vars z) = none ∧ (if z = y then a x else if z = x then none else a z) = none ∨ ∃ o ty ys,
      (if z = y then w.vars x else if z = x then none else w.vars z) = some o ∧ (if z = y then a x else if z = x then none else a z) = some (ty, ys) ∧ _
    by_cases e1 : z = y
    · rw [if_pos e1, if_pos e1]; exact hs x
    · rw [if_neg e1, if_neg e1]
      by_cases e2 : z = x
      · rw [if_pos e2, if_pos e2]; exact .inl ⟨rfl, rfl⟩
      · rw [if_neg e2, if_neg e2]; exact hs z
  | truncate x n =>
    injection he with he
    obtain ⟨v, hx⟩ := h
    obtain ⟨ty, ys, h1, h2, h3, h4⟩ := hs.holds hx
    have et : ty = .vec := by cases ty <;> first | rfl | exact h2.elim
    subst et
    refine ⟨_, hs.assign (no := some (shorter n (.vec v))) hk (by rw [← he]; show w.set x _ = _; rw [hx]; rfl) (.inr ⟨_, _, ys.take n, rfl, rfl, show (Owned.vec _).HasTy .vec from trivial, ?_, ?_⟩), rfl, ys, h1, rfl⟩
    · rw [List.length_take, h3]; rfl
    · subst he
      have := reads_slice h4 (k := 0) (n := min n ys.length) (by omega)
      rw [List.drop_zero, show ys.take (min n ys.length) = ys.take n by rw [← List.take_take, List.take_length]] at this
      exact this
  | intoBytes x =>
    injection he with he
    obtain ⟨o, hx⟩ := h
    obtain ⟨ty, ys, h1, h2, h3, h4⟩ := hs.holds hx
    refine ⟨_, hs.assign (no := some (intoBytes o)) hk (by rw [← he]; show w.set x _ = _; rw [hx]; rfl) (.inr ⟨_, plainTy ty, ys, rfl, rfl, hasTy_bytes h2, ?_, ?_⟩), rfl, ty, ys, h1, rfl⟩
    · rw [h3]; cases o <;> rfl
    · subst he; cases o <;> exact h4
  | drop x =>
    obtain ⟨o, hx⟩ := h
    have e : exec M.P w (.drop x) = w.after (dropOwned o w.st) fun _ => w.set x none := by
      show (match w.vars x with | some o => w.after (dropOwned o w.st) fun _ => w.set x none | none => .ub) = _
      rw [hx]
    have h1 := drop_sim (E := fun _ => False) (drop_eq o) (hI.valid x o hx).owns
    rw [he] at e
    unfold Sim at h1
    split at h1
    · rename_i s' _ m e1 e2
      rw [e1] at e
      injection e with e
      exact ⟨_, hs.assign (no := none) hk (by rw [e]) (.inl ⟨rfl, rfl⟩), rfl, rfl⟩
    all_goals rename_i e' ; try cases e'
    all_goals exact h1.elim

/-! ### The store determines what happens -/

theorem slice_unique {p : Ptr} {n : Nat} {xs ys : List Byte} (h : a.Slice p n xs) (h' : a.Slice p n ys) : xs = ys := by
  obtain ⟨ty, zs, h1, -, rfl⟩ := h
  obtain ⟨ty', zs', h1', -, rfl⟩ := h'
  rw [h1] at h1'; cases h1'; rfl

theorem sees_unique {α : Type} {c : Call α} {xs ys : List Byte} {v v' : Seen} (h : CallSees xs ys v c) (h' : CallSees xs ys v' c) : v = v' := by
  cases c
  case isAscii =>
    obtain ⟨b, rfl, h⟩ := h
    obtain ⟨b', rfl, h'⟩ := h'
    rw [Bool.eq_iff_iff.2 (h.trans h'.symm)]
  case isUtf32le =>
    obtain ⟨b, rfl, h⟩ := h
    obtain ⟨b', rfl, h'⟩ := h'
    rw [Bool.eq_iff_iff.2 (h.trans h'.symm)]
  case swap t _ _ _ =>
    obtain ⟨b, rfl, h⟩ := h
    obtain ⟨b', rfl, h'⟩ := h'
    rw [Nat.eq_of_mul_eq_mul_left (by cases t <;> decide) (h.trans h'.symm)]
  all_goals exact Eq.trans (show v = _ from h) (show v' = _ from h').symm

theorem patched_unique {ys ys1 ys2 out : List Byte} {off n : Nat} (hn : n ≤ out.length) (h1 : Patched ys ys1 off n out) (h2 : Patched ys ys2 off n out) : ys1 = ys2 := by
  refine List.ext_getElem? fun k => ?_
  by_cases hk : k < ys.length
  · by_cases hi : off ≤ k ∧ k < off + n
    · have e : k = off + (k - off) := by omega
      rw [e, h1.2.2 (k - off) (by omega) (by omega), h2.2.2 (k - off) (by omega) (by omega)]
    · rw [h1.2.1 k hk hi, h2.2.1 k hk hi]
  · rw [List.getElem?_eq_none (by rw [h1.1]; omega), List.getElem?_eq_none (by rw [h2.1]; omega)]

theorem step_unique {op : Op} {v v' : Seen} {a1 a2 : Store} (hx : Exact a op) (h : Step a v a1 op) (h' : Step a v' a2 op) : v = v' ∧ a1 = a2 := by
  cases op with
  | new | move | drop => exact ⟨h.1.trans h'.1.symm, h.2.trans h'.2.symm⟩
  | read x off n =>
    obtain ⟨xs, h1, rfl, rfl⟩ := h
    obtain ⟨xs', h1', rfl, rfl⟩ := h'
    rw [slice_unique h1 h1']; exact ⟨rfl, rfl⟩
  | write | intoBytes =>
    obtain ⟨rfl, ty, ys, h1, rfl⟩ := h
    obtain ⟨rfl, ty', ys', h1', rfl⟩ := h'
    rw [h1] at h1'; cases h1'; exact ⟨rfl, rfl⟩
  | truncate =>
    obtain ⟨rfl, ys, h1, rfl⟩ := h
    obtain ⟨rfl, ys', h1', rfl⟩ := h'
    rw [h1] at h1'; cases h1'; exact ⟨rfl, rfl⟩
  | call c =>
    obtain ⟨xs, res, h1, h2, h3, ty, ys, ys1, h4, rfl, h5⟩ := h
    obtain ⟨xs', res', h1', h2', h3', ty', ys', ys2, h4', rfl, h5'⟩ := h'
    obtain rfl := slice_unique h1 h1'
    obtain rfl := h2.unique h2'
    rw [h4] at h4'; cases h4'
    refine ⟨?_, by rw [patched_unique (hx xs res h1 h2) h5 h5']⟩
    cases res with
    | none => exact h3.trans h3'.symm
    | some out => exact sees_unique h3 h3'
  | heap x c =>
    obtain ⟨xs, res, h1, h2, h3⟩ := h
    obtain ⟨xs', res', h1', h2', h3'⟩ := h'
    obtain rfl := slice_unique h1 h1'
    obtain rfl := h2.unique h2'
    revert h3 h3'
    cases c.vec <;> cases res <;> intro h3 h3'
    · exact ⟨h3.1.trans h3'.1.symm, h3.2.trans h3'.2.symm⟩
    · exact ⟨h3.1.trans h3'.1.symm, h3.2.trans h3'.2.symm⟩
    · exact ⟨h3.1.trans h3'.1.symm, h3.2.trans h3'.2.symm⟩
    · obtain ⟨ty, ys, q1, rfl, rfl⟩ := h3
      obtain ⟨ty', ys', q1', rfl, rfl⟩ := h3'
      rw [q1] at q1'; cases q1'; exact ⟨rfl, rfl⟩

/-- What a step means is in its source. -/
theorem step_source {op : Op} {v : Seen} : Step a v a' op ↔ Step a v a' (source op) := by
  cases op with
  | call c => cases c <;> exact Iff.rfl
  | heap x c => cases c <;> first | exact Iff.rfl | exact exists_congr fun xs => exists_congr fun res => by cases res <;> exact Iff.rfl
  | _ => exact Iff.rfl

/-! ### Which steps do not panic -/

theorem read_goes_on (hI : Inv M.P w) {x off n : Nat} (h : Legal M w (.read x off n)) : ∃ w', exec M.P w (.read x off n) = .ok w' := by
  obtain ⟨xs, hl, hx⟩ := holds_reads hI (p := ⟨x, off⟩) h
  obtain ⟨o, h1, h2⟩ := h
  have hle := len_le hI h1
  have er : (loadBytes (place w.st ⟨w.tag x, off⟩) n).run w.st.mem = .ok xs w.st.mem := by
    subst hl
    show (Prog.load _ _ _).run _ = _
    rw [prog_run_load, hx.has.read]; rfl
  have h := load_sim (E := fun _ => False) (part_readable hI h1 (off := off) (n := n) (by dsimp only at h2; omega)) (by rw [er]; nofun)
  show ∃ w', w.after (prog (loadBytes ⟨w.tag x, off⟩ n) w.st) (fun _ => w.vars) = .ok w'
  rw [er] at h
  unfold Sim at h
  split at h
  · rename_i e _; rw [e]; exact ⟨_, rfl⟩
  · rename_i e; cases e
  · rename_i e; cases e
  · exact h.elim

theorem write_goes_on (hI : Inv M.P w) {x off : Nat} {bs : List Byte} (h : Legal M w (.write x off bs)) : ∃ w', exec M.P w (.write x off bs) = .ok w' := by
  obtain ⟨o, h1, h2, ht⟩ := h
  have hle := len_le hI h1
  have ho := (hI.valid x o h1).owns
  have hsz : off + bs.length ≤ w.st.mem.size (w.st.home (w.tag x)) := by
    have := ho.size
    rw [tag_eq h1, this]; omega
  have h := store_sim (E := fun _ => False) (part_mutable hI h1 (off := off) (n := bs.length) (by omega)) hsz
  show ∃ w', w.after (prog (storeBytes ⟨w.tag x, off⟩ bs) w.st) (fun _ => w.vars) = .ok w'
  unfold Sim at h
  split at h
  · rename_i e _; rw [e]; exact ⟨_, rfl⟩
  · exact h.2.elim
  · rename_i e
    exfalso
    revert e
    show (Prog.store _ _ _).run _ = _ → False
    unfold Prog.run
    split <;> nofun
  · exact h.elim

theorem drop_goes_on (hI : Inv M.P w) {x : Nat} (h : Legal M w (.drop x)) : ∃ w', exec M.P w (.drop x) = .ok w' := by
  obtain ⟨o, hx⟩ := h
  have e : exec M.P w (.drop x) = w.after (dropOwned o w.st) fun _ => w.set x none := by
    show (match w.vars x with | some o => w.after (dropOwned o w.st) fun _ => w.set x none | none => .ub) = _
    rw [hx]
  have h1 := drop_sim (E := fun _ => False) (drop_eq o) (hI.valid x o hx).owns
  rw [e]
  unfold Sim at h1
  split at h1
  · rename_i e1 _; rw [e1]; exact ⟨_, rfl⟩
  all_goals rename_i e' ; try cases e'
  all_goals exact h1.elim

theorem shortSwap_untag (s : State) {α : Type} (c : Call α) : ShortSwap (untag s (w.args c)) ↔ ShortSwap c := by cases c <;> exact Iff.rfl

theorem call_goes_on (hI : Inv M.P w) {α : Type} {c : Call α} (h : Legal M w (.call c)) (hn : ¬ ShortSwap c) : ∃ w', exec M.P w (.call c) = .ok w' := by
  obtain ⟨hr, h1, ⟨o, h2, h3, h4⟩, h5, h6⟩ := h
  obtain ⟨hr', hb, hob⟩ := call_borrows hI hr h1 h2 h3 h5 h6
  have hin : w.Holds (input c).1 (input c).2 := by
    rcases input_cases c with ⟨hp, e⟩ | e <;> rw [e]
    · exact h5 hp
    · exact h1
  obtain ⟨xs, hl, hx⟩ := holds_reads hI hin
  obtain ⟨res, -, hc⟩ := C90_call M (untag w.st (w.args c)) w.st.mem hr' hb (xs := xs) (by rw [input_untag]; exact hl) (by rw [input_untag]; exact hx)
  show ∃ w', w.after ((w.args c).borrow M.P w.st) (fun _ => w.vars) = .ok w'
  unfold Obeys at hob
  split at hob
  · rename_i e _; rw [e]; exact ⟨_, rfl⟩
  · rename_i e _; rw [e]; exact ⟨_, rfl⟩
  · rename_i _ e
    rw [e] at hc
    exact absurd ((shortSwap_untag _ _).1 hc) hn
  · exact hob.elim

end Simd.Client
