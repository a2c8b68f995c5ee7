import Verif.Spec.LendPlain
import Verif.Lemmas.LendValue
/-
Each step of a program with references ends as over plain memory.
-/
namespace Simd.Lend
open Borrow Spec Client

variable {M : Machine} {P : Plat} {w w' : World}

/-! ### Names and pointers -/

theorem move_owner (σ : Nat → Nat) (o : Owned) : (Spec.ownerOf (Moves.move σ o)).1.buf = σ (Spec.ownerOf o).1.buf := by cases o <;> rfl
theorem move_congr {σ τ : Nat → Nat} {o : Owned} (h : σ (Spec.ownerOf o).1.buf = τ (Spec.ownerOf o).1.buf) : (Moves.move σ o : Owned) = Moves.move τ o := by
  cases o <;> (dsimp only [Spec.ownerOf] at h; dsimp only [Moves.move]; rw [h])

theorem plain_ref {r : Nat} {ρ : Ref} (h : w.refs r = some ρ) : w.plain.refs r = some { ρ with tag := w.st.home ρ.tag } := by
  show (w.refs r).map _ = _; rw [h]; rfl
theorem plain_noref {r : Nat} (h : w.refs r = none) : w.plain.refs r = none := by
  show (w.refs r).map _ = _; rw [h]; rfl
theorem plain_var {x : Nat} {o : Owned} (h : w.vars x = some o) : w.plain.vars x = some (Moves.move w.st.home o) := by
  show (w.vars x).map _ = _; rw [h]; rfl

theorem alloc_eq (hI : RInv P w) {p : Ptr} {n : Nat} (h : w.Within p n) : w.plain.alloc p.buf = w.st.home (w.name p.buf) := by
  unfold Plain.alloc
  rcases h with ⟨o, h, -⟩ | ⟨ρ, h, -⟩
  · rw [plain_noref (hI.var_name h).2.2, plain_var h, (hI.var_name h).1]
    exact move_owner _ o
  · rw [plain_ref h, (ref_name h).1]

theorem at_eq (hI : RInv P w) {p : Ptr} {n : Nat} (h : w.Within p n) : w.plain.at' p = place w.st ⟨w.name p.buf, p.off⟩ := by
  unfold Plain.at' place; rw [alloc_eq hI h]

theorem plain_ownerOf (n : Nat) : w.plain.ownerOf n = w.ownerOf n := by
  unfold Plain.ownerOf World.ownerOf
  cases h : w.refs n with
  | none => rw [plain_noref h]
  | some ρ => rw [plain_ref h]

/-! ### The world after a step -/

/-- The tags that were in use are those of the same allocations. -/
def Homes (w : World) (s' : State) : Prop := ∀ t, t < w.st.next → s'.home t = w.st.home t

theorem plain_vars (hI : RInv P w) {s' : State} (hh : Homes w s') (x : Nat) : (w.vars x).map (Moves.move s'.home) = w.plain.vars x := by
  show _ = (w.vars x).map _
  cases h : w.vars x with
  | none => rfl
  | some o => exact congrArg some (move_congr (hh _ (hI.base.valid x o h).owns.tag))

theorem plain_refs (hI : RInv P w) {s' : State} (hh : Homes w s') (r : Nat) : (w.refs r).map (fun ρ => { ρ with tag := s'.home ρ.tag }) = w.plain.refs r := by
  show _ = (w.refs r).map _
  cases h : w.refs r with
  | none => rfl
  | some ρ =>
    obtain ⟨o, -, h2⟩ := hI.refs r ρ h
    exact congrArg some (by dsimp only; rw [hh _ h2.tag])

theorem plain_stay (hI : RInv P w) {s' : State} (hh : Homes w s') : World.plain ⟨⟨w.vars, s'⟩, w.refs⟩ = ⟨s'.mem, w.plain.vars, w.plain.refs⟩ := by
  have h1 := funext (plain_vars hI hh)
  have h2 := funext (plain_refs hI hh)
  show Plain.mk _ _ _ = _
  rw [← h1, ← h2]

theorem plain_set (hI : RInv P w) {s' : State} (hh : Homes w s') (x : Nat) (no : Option Owned) :
    World.plain ⟨⟨w.set x no, s'⟩, w.refs⟩ = ⟨s'.mem, w.plain.set x (no.map (Moves.move s'.home)), w.plain.refs⟩ := by
  have h2 := funext (plain_refs hI hh)
  show Plain.mk _ _ _ = _
  rw [← h2]
  congr 1
  funext y
  unfold Client.World.set Plain.set
  dsimp only
  split
  · rfl
  · exact plain_vars hI hh y

theorem plain_setRef (hI : RInv P w) {s' : State} (hh : Homes w s') (k : Nat) (ρ : Option Ref) :
    World.plain ⟨⟨w.vars, s'⟩, w.setRef k ρ⟩ = ⟨s'.mem, w.plain.vars, w.plain.setRef k (ρ.map fun ρ => { ρ with tag := s'.home ρ.tag })⟩ := by
  have h1 := funext (plain_vars hI hh)
  show Plain.mk _ _ _ = _
  rw [← h1]
  congr 1
  funext y
  unfold World.setRef Plain.setRef
  dsimp only
  split
  · rfl
  · exact plain_refs hI hh y

theorem homes_refl (w : World) : Homes w w.st := fun _ _ => rfl
theorem homes_after {s' : State} {G : Nat → Nat → Loan} (h : AfterCall w.st s' G) : Homes w s' := h.home

/-- A step that changes memory only. -/
theorem plain_after (hI : RInv P w) {α β : Type} {r : Result α} {o : Out β} {Q : α → β → State → Prop} {E : State → Prop} (h : Sim r o Q E) (hQ : ∀ a b s, Q a b s → Homes w s) (hE : ∀ s, E s → Homes w s) :
    (w.after r).plain = w.plain.after o fun _ => w.plain.vars := by
  cases r <;> cases o <;> first
    | exact h.elim
    | rfl
    | (obtain ⟨rfl, h⟩ := h; exact congrArg Plain.End.ok (plain_stay hI (hQ _ _ _ h)))
    | (obtain ⟨rfl, h⟩ := h; exact congrArg Plain.End.ok (plain_stay hI (hE _ h)))

/-- A new reference. -/
theorem plain_make (hI : RInv P w) {s' : State} (hh : Homes w s') (hn : w.st.next ≤ s'.next) {k : Nat} {excl init : Bool} {x : Nat} {p : Ptr} {n : Nat}
    (hu : World.make { w with st := s' } k excl init x p n ≠ .ub) :
    (World.make { w with st := s' } k excl init x p n).plain = .ok ⟨s'.mem, w.plain.vars, w.plain.setRef k (some ⟨s'.home p.buf, p.off, n, excl, init, x⟩)⟩ := by
  cases e : World.make { w with st := s' } k excl init x p n with
  | ub => exact (hu e).elim
  | panic => exact (make_panic e).elim
  | ok w' =>
    obtain ⟨s2, rfl, h1, h2⟩ := make_eq e
    have hh' : Homes w s2 := fun t ht => by
      rw [h2]
      dsimp only
      rw [if_neg (by omega)]
      exact hh t ht
    refine congrArg Plain.End.ok ((plain_setRef hI hh' k (some ⟨s'.next, p.off, n, excl, init, x⟩)).trans ?_)
    have h3 : s2.home s'.next = s'.home p.buf := by rw [h2]; exact if_pos rfl
    dsimp only [Option.map]
    rw [h3, h1]

/-! ### Calls -/

theorem plain_args (hI : RInv P w) {α : Type} {c : Call α} (h1 : w.Within c.shared.1 c.shared.2) (h2 : w.Within c.exclusive.1 c.exclusive.2) : w.plain.args c = untag w.st (w.args c) := by
  have e1 := alloc_eq hI h1
  have e2 := alloc_eq hI h2
  unfold Plain.args
  cases c <;> dsimp only [Call.shared, Call.exclusive] at e1 e2 <;> dsimp only [World.args, untag, place] <;> simp only [e1, e2]

/-- What is seen of a result does not depend on the tags, and the slice that is returned is the same. -/
theorem same_result {s' : State} {α : Type} {c : Call α} {a a' : α} (h : SameResult s' c a a') : view c a = view c a' ∧ returned c a' = (returned c a).map fun q => (place s' q.1, q.2) := by
  cases c <;> (obtain ⟨rfl, -, -⟩ := h; exact ⟨rfl, rfl⟩)

theorem sameResult_args {s' : State} {α : Type} {c : Call α} {a a' : α} (h : SameResult s' (w.args c) a a') : SameResult s' c a a' := by cases c <;> exact h

/-- The end of a call. -/
theorem plain_kept (hI : RInv P w) {α : Type} {c : Call α} {keep : Option Nat} {r : Result α} {o : Out α}
    (h : Sim r o (fun a a' s' => Homes w s' ∧ w.st.next ≤ s'.next ∧ SameResult s' c a a') fun s' => Homes w s') (hu : w.kept c keep r ≠ .ub) :
    saw c r = Plain.saw c o ∧ (w.kept c keep r).plain = w.plain.kept c keep o := by
  cases r with
  | ub => cases o <;> exact h.elim
  | panic => cases o <;> first | exact h.elim | (cases keep <;> exact ⟨rfl, rfl⟩)
  | err s' =>
    cases o <;> first | exact h.elim | skip
    obtain ⟨rfl, h⟩ := h
    refine ⟨rfl, ?_⟩
    cases keep <;> exact congrArg Plain.End.ok (plain_stay hI h)
  | ok a s' =>
    cases o <;> first | exact h.elim | skip
    rename_i a' m
    obtain ⟨rfl, h1, h2, h3⟩ := h
    obtain ⟨h4, h5⟩ := same_result h3
    refine ⟨h4, ?_⟩
    cases keep with
    | none => exact congrArg Plain.End.ok (plain_stay hI h1)
    | some k =>
      unfold World.kept at hu ⊢
      unfold Plain.kept
      dsimp only at hu ⊢
      rw [h5]
      cases e : returned c a with
      | none => exact congrArg Plain.End.ok (plain_stay hI h1)
      | some pn =>
        obtain ⟨p, n⟩ := pn
        rw [e] at hu
        dsimp only [Option.map] at hu ⊢
        rw [plain_ownerOf]
        exact plain_make hI h1 h2 hu

/-! ### Allocating calls -/

theorem plain_argsHeap (hI : RInv P w) {α : Type} {c : HeapCall α} (h1 : w.Within c.shared.ptr c.shared.len) (h2 : ∀ v, c.vec = some v → w.plain.alloc v.buf = w.st.home (w.name v.buf)) :
    w.plain.argsHeap c = untagHeap w.st (w.argsHeap c) := by
  have e1 := alloc_eq hI h1
  unfold Plain.argsHeap
  cases c <;> dsimp only [HeapCall.shared, HeapCall.vec] at e1 h2 <;> dsimp only [World.argsHeap, untagHeap, place] <;>
    first
    | simp only [e1, h2 _ rfl]
    | simp only [e1]

theorem viewHeap_move (s : State) (o : Owned) {α : Type} (c : HeapCall α) (r : α) : viewHeap (Moves.move s.home o) c (untagResult s c r) = viewHeap o c r := by
  have hl : len (Moves.move s.home o) = len o := by cases o <;> rfl
  cases c <;> dsimp only [viewHeap, untagResult] <;> rw [hl] <;> rfl

/-- The kind of result depends only on the kind of variable. -/
theorem result_old {α : Type} (σ : Nat → Nat) (old : Option Owned) (c : HeapCall α) (r : α) : result (old.map (Moves.move σ)) c r = result old c r := by
  cases old with
  | none => rfl
  | some o => cases c <;> cases o <;> rfl

theorem plain_heap (hI : RInv M.P w) {x : Nat} {α : Type} {c : HeapCall α} (h : Legal M w (.heap x c)) :
    sawHeap (w.vars x) c ((w.argsHeap c).borrow M.P w.st) = Plain.sawHeap (w.plain.vars x) c (((w.plain.argsHeap c).prog M.P).run w.plain.mem) ∧
    (w.owned (w.toWorld.after ((w.argsHeap c).borrow M.P w.st) fun r => w.set x (some (Client.result (w.vars x) c r)))).plain =
      w.plain.after (((w.plain.argsHeap c).prog M.P).run w.plain.mem) fun r => w.plain.set x (some (Client.result (w.plain.vars x) c r)) := by
  obtain ⟨hsome, htag, -⟩ := heap_args hI h
  obtain ⟨hr, hs, -⟩ := h
  obtain ⟨-, -, ho⟩ := heap_borrows' (tg := w.name) hI.base hr (CanRead.source hI hs) hsome htag
  have ea : w.plain.argsHeap c = untagHeap w.st (w.argsHeap c) := plain_argsHeap hI (Inits.within hI hs.1) fun v hv => by
    obtain ⟨rfl, t, ht⟩ := hsome v hv
    have hv : ∃ o, w.vars v.buf = some o := by rcases ht with ht | ⟨-, ht⟩ <;> exact ⟨_, ht⟩
    obtain ⟨o, hv⟩ := hv
    unfold Plain.alloc
    rw [plain_noref (hI.var_name hv).2.2, plain_var hv, (hI.var_name hv).1]
    exact move_owner _ o
  rw [ea, show w.plain.vars x = (w.vars x).map (Moves.move w.st.home) from rfl, show w.plain.mem = w.st.mem from rfl]
  have ho : ObeysHeap M.P w.st (w.argsHeap c) (((untagHeap w.st (w.argsHeap c)).prog M.P).run w.st.mem) := ho
  revert ho
  generalize ((untagHeap w.st (w.argsHeap c)).prog M.P).run w.st.mem = o
  intro ho
  unfold ObeysHeap at ho
  cases e : (w.argsHeap c).borrow M.P w.st <;> rw [e] at ho <;> cases o <;> first | exact ho.elim | skip
  · rename_i r s' r' m
    obtain ⟨rfl, rfl, hA, -⟩ := ho
    have e1 : result (w.vars x) c (untagResult s' (w.argsHeap c) r) = Moves.move s'.home (result (w.vars x) c r) := by
      cases c <;> first | rfl | (dsimp only [World.argsHeap, untagHeap, untagResult, result]; split <;> rfl)
    have e2 : untagResult s' (w.argsHeap c) r = untagResult s' c r := by cases c <;> rfl
    refine ⟨?_, congrArg Plain.End.ok ?_⟩
    · show viewHeap _ c r = viewHeap _ c _
      rw [result_old, e1, e2, viewHeap_move]
    · dsimp only
      rw [result_old, e1]
      exact plain_set hI (homes_after hA) x _
  · obtain ⟨rfl, hA, -⟩ := ho
    exact ⟨rfl, congrArg Plain.End.ok (plain_stay hI (homes_after hA))⟩
  · exact ⟨rfl, rfl⟩

/-! ### All steps -/

theorem plain_new (hI : RInv P w) {x : Nat} {text : Bool} {bs : List Byte} {cap : Nat} (h : bs.length ≤ cap) :
    (w.owned (Client.exec P w.toWorld (.new x text bs cap))).plain =
      w.plain.after ((create bs cap).run w.plain.mem) fun b => w.plain.set x (some (if text then .string ⟨b, bs.length, cap⟩ else .vec ⟨b, bs.length, cap⟩)) := by
  show (w.owned (w.toWorld.after (prog (create bs cap) w.st) _)).plain = _
  rw [create_eq _ _ _ h]
  have e : (create bs cap).run w.plain.mem = .ok w.st.mem.nbuf ((w.st.mem.alloc cap).write ⟨w.st.mem.nbuf, 0⟩ bs) := by
    have hz : (w.st.mem.alloc cap).size w.st.mem.nbuf = cap := if_pos rfl
    show (if 0 + bs.length ≤ (w.st.mem.alloc cap).size w.st.mem.nbuf then _ else _) = _
    rw [hz, if_pos (by omega)]; rfl
  rw [e]
  refine congrArg Plain.End.ok ((plain_set hI (s' := { State.allocated w.st cap with mem := (w.st.mem.alloc cap).write ⟨w.st.mem.nbuf, 0⟩ bs }) (homes_after (G := fresh w.st.mem.nbuf)
    ⟨(after_alloc w.st cap).next, (after_alloc w.st cap).frame, (after_alloc w.st cap).home, (after_alloc w.st cap).stack⟩) x _).trans ?_)
  have hh : (State.allocated w.st cap).home w.st.next = w.st.mem.nbuf := if_pos rfl
  cases text with
  | false => dsimp only [Option.map, Moves.move]; rw [if_neg (by decide)]; dsimp only; rw [hh]; rfl
  | true => dsimp only [Option.map, Moves.move]; rw [if_pos rfl]; dsimp only; rw [hh]; rfl

theorem plain_drop (hI : RInv P w) {x : Nat} {o : Owned} (hx : w.vars x = some o) :
    (w.owned (Client.exec P w.toWorld (.drop x))).plain = .ok ⟨w.plain.mem, w.plain.set x none, w.plain.refs⟩ := by
  have h := drop_sim (E := fun _ => False) (drop_eq o) (hI.base.valid x o hx).owns
  show (w.owned (match w.vars x with | some o => w.toWorld.after (dropOwned o w.st) fun _ => w.set x none | none => .ub)).plain = _
  rw [hx]
  dsimp only
  unfold Sim at h
  split at h
  · rename_i _ s' _ m e e'
    cases e'
    obtain ⟨hm, -, -, h3, -⟩ := h
    rw [e]
    refine congrArg Plain.End.ok ((plain_set hI (fun t _ => by rw [h3]) x none).trans ?_)
    rw [hm]; rfl
  · exact h.2.elim
  · rename_i e; cases e
  · exact h.elim

/-- The step with what is seen of it, over plain memory. -/
theorem shows_plain (hI : RInv M.P w) {op : Op} (h : Legal M w op) {v : Seen} {e : End} (hs : Shows M.P w op v e) : Plain.Exec M.P w.plain op v e.plain := by
  have cast : ∀ {v' : Seen} {e' : Plain.End}, Plain.Exec M.P w.plain op v' e' → v = v' ∧ e.plain = e' → Plain.Exec M.P w.plain op v e.plain := fun h1 h2 => by rw [h2.1, h2.2]; exact h1
  cases hs with
  | quiet hq he =>
    have hf := step_fine hI h he
    cases he with
    | new x text bs cap => exact cast (.new ..) ⟨rfl, plain_new hI h.2.1⟩
    | move x y =>
      refine cast (.move ..) ⟨rfl, congrArg Plain.End.ok ?_⟩
      show Plain.mk _ _ _ = _
      congr 1
      funext z
      show Option.map _ (if z = y then w.vars x else if z = x then none else w.vars z) = if z = y then w.plain.vars x else if z = x then none else w.plain.vars z
      split
      · rfl
      · split <;> rfl
    | truncate x n =>
      refine cast (.truncate ..) ⟨rfl, congrArg Plain.End.ok ((plain_set hI (homes_refl w) x _).trans ?_)⟩
      rw [show w.plain.vars x = (w.vars x).map (Moves.move w.st.home) from rfl]
      cases w.vars x with
      | none => rfl
      | some o => cases o <;> rfl
    | intoBytes x =>
      refine cast (.intoBytes ..) ⟨rfl, congrArg Plain.End.ok ((plain_set hI (homes_refl w) x _).trans ?_)⟩
      rw [show w.plain.vars x = (w.vars x).map (Moves.move w.st.home) from rfl]
      cases w.vars x with
      | none => rfl
      | some o => cases o <;> rfl
    | drop x =>
      obtain ⟨⟨o, h1⟩, -⟩ := h
      exact cast (.drop ..) ⟨rfl, plain_drop hI h1⟩
    | borrow k excl init p n =>
      have hin : w.Within p n := by
        cases excl with
        | true => exact CanWrite.within (h.2.2.1 rfl)
        | false => exact Inits.within hI (h.2.2.2 rfl).1
      refine cast (.borrow ..) ⟨rfl, (plain_make hI (homes_refl w) (Nat.le_refl _) fun e => ?_).trans ?_⟩
      · have e : w.make k excl init (w.ownerOf p.buf) ⟨w.name p.buf, p.off⟩ n = .ub := e
        rw [e] at hf; exact hf
      · rw [alloc_eq hI hin, plain_ownerOf]; rfl
    | forget k => exact cast (.forget ..) ⟨rfl, congrArg Plain.End.ok (plain_setRef hI (homes_refl w) k none)⟩
    | write p bs =>
      obtain ⟨o, h1, h2, h3, h4, h5, h6, -⟩ := Within.owner hI (CanWrite.within h)
      have g := store_sim (E := fun _ => False) (CanWrite.mutable hI h) (by dsimp only; rw [h3, h5.size]; omega)
      rw [← at_eq hI (CanWrite.within h)] at g
      exact cast (.write ..) ⟨rfl, plain_after hI g (fun _ _ _ ⟨S, e, _⟩ => by rw [e]; exact fun _ _ => rfl) fun _ h => h.elim⟩
    | read | call | par | heap | ext => exact hq.elim
  | read p n =>
    have hs := CanRead.source hI h
    obtain ⟨xs, hl, hx⟩ := hs.content
    have hr : (loadBytes (place w.st ⟨w.name p.buf, p.off⟩) n).run w.st.mem ≠ .ub := by
      subst hl
      show (Prog.load _ _ _).run _ ≠ _
      rw [prog_run_load, hx.has.read]; nofun
    have g := load_sim (E := fun _ => False) hs.readable hr
    rw [← at_eq hI (Inits.within hI h.1)] at g
    refine cast (.read ..) ⟨?_, plain_after hI g (fun _ _ _ ⟨_, _, S, e, _⟩ => by rw [e]; exact fun _ _ => rfl) fun _ h => h.elim⟩
    unfold Sim at g
    split at g
    · rename_i e1 e2
      rw [e1, show (loadBytes (w.plain.at' p) n).run w.plain.mem = _ from e2, g.2.1]; rfl
    · exact g.2.elim
    · rename_i e1 e2
      rw [e1, show (loadBytes (w.plain.at' p) n).run w.plain.mem = _ from e2]; rfl
    · exact g.elim
  | call c keep =>
    have hf := step_fine hI h (.call c keep)
    obtain ⟨hr, hr', hl, hb⟩ := World.CanCall.borrows hI h
    have ho := C85_call M (w.args c) w.st hr hI.base.sound hl hb
    refine cast (.call c keep) ?_
    rw [plain_args hI (Inits.within hI h.shared.1) (CanWrite.within h.excl)]
    refine plain_kept hI ?_ fun e => by rw [e] at hf; exact hf
    have ho := sim_of_obeys ho fun _ _ => rfl
    exact ho.mono (fun _ _ _ h => ⟨homes_after h.1, h.1.next, sameResult_args h.2⟩) fun _ h => homes_after h
  | par threads i config src dst keep r hrun =>
    have hf := step_fine hI h (.par threads i config src dst keep r hrun)
    obtain ⟨hr, hr', hl, hb⟩ := World.CanCall.borrows hI h
    obtain ⟨o, h1, h2, -⟩ := C91_par_encode M threads i config _ _ w.st hr hI.base.sound hl hb
    refine cast (.par threads i config src dst keep o ?_) (plain_kept hI ?_ fun e => by rw [e] at hf; exact hf)
    · rw [at_eq hI (Inits.within hI h.shared.1 : w.Within src.ptr src.len), at_eq hI (CanWrite.within h.excl : w.Within dst.ptr dst.len)]
      exact (h1 o).2 rfl
    · have g := h2 r hrun
      cases r <;> cases o <;> first | exact g.elim | trivial | exact ⟨g.1, homes_after g.2.1, g.2.1.next, g.2.2⟩ | exact ⟨g.1, homes_after g.2⟩
  | heap x c => exact cast (.heap x c) (plain_heap hI h)
  | ext c =>
    have hin := Inits.within hI h.2.1
    obtain ⟨xs, hn, hx⟩ := Inits.reads hI h.2.1
    have g := CanRead.source hI h.2
    have hmax := g.max
    have hb := ext_both M (w.argsExt c) w.st xs (by have := h.1; cases c <;> exact this) hI.base.sound (by rw [argsExt_shared]; exact g.readable) (by rw [argsExt_shared]; exact g.exists_)
      (by rw [argsExt_shared]; exact hx) (by rw [argsExt_shared]; exact hn) (by omega)
    have e1 : extPlain w.st (w.argsExt c) = w.plain.ext c := by
      cases c <;> (dsimp only [ExtCall.shared] at hin; dsimp only [World.argsExt, extPlain, Plain.ext]; rw [at_eq hI hin])
    rw [e1] at hb
    obtain ⟨res, s', -, e2, -, hA⟩ := ext_world hI h hn hx
    have hh : Homes w s' := homes_after hA.after
    obtain ⟨hb, -⟩ := hb
    refine cast (.ext c) ?_
    rw [e2] at hb ⊢
    unfold ExtSame Sim at hb
    rw [show w.plain.mem = w.st.mem from rfl]
    cases res with
    | none =>
      cases eo : (w.plain.ext c).run w.st.mem <;> rw [eo] at hb <;> first | exact hb.elim | skip
      obtain ⟨rfl, -⟩ := hb
      exact ⟨rfl, congrArg Plain.End.ok (plain_stay hI hh)⟩
    | some r =>
      cases eo : (w.plain.ext c).run w.st.mem <;> rw [eo] at hb <;> first | exact hb.elim | skip
      obtain ⟨rfl, rfl⟩ := hb
      exact ⟨rfl, congrArg Plain.End.ok (plain_stay hI hh)⟩

/-- Over plain memory a step has one outcome. -/
theorem plain_unique (hI : RInv M.P w) {op : Op} (h : Legal M w op) {v v' : Seen} {e e' : Plain.End} (h1 : Plain.Exec M.P w.plain op v e) (h2 : Plain.Exec M.P w.plain op v' e') : v = v' ∧ e = e' := by
  cases h1 <;> cases h2 <;> first | exact ⟨rfl, rfl⟩ | skip
  rename_i threads i config src dst keep o ho o' ho'
  obtain ⟨hr, hr', hl, hb⟩ := World.CanCall.borrows hI h
  obtain ⟨o2, g1, -⟩ := C91_par_encode M threads i config _ _ w.st hr hI.base.sound hl hb
  rw [at_eq hI (Inits.within hI h.shared.1 : w.Within src.ptr src.len), at_eq hI (CanWrite.within h.excl : w.Within dst.ptr dst.len)] at ho ho'
  rw [(g1 o).1 ho, (g1 o').1 ho']
  exact ⟨rfl, rfl⟩

/-- Something is seen of every execution. -/
theorem shows_of_exec {op : Op} {e : End} (h : Exec P w op e) : ∃ v, Shows P w op v e := by
  cases h with
  | read p n => exact ⟨_, .read p n⟩
  | call c keep => exact ⟨_, .call c keep⟩
  | par threads i config src dst keep r h => exact ⟨_, .par threads i config src dst keep r h⟩
  | heap x c => exact ⟨_, .heap x c⟩
  | ext c => exact ⟨_, .ext c⟩
  | new | move | truncate | intoBytes | drop | borrow | forget | write => exact ⟨_, .quiet trivial (by constructor)⟩

theorem exec_of_shows {op : Op} {v : Seen} {e : End} (h : Shows P w op v e) : Exec P w op e := by
  cases h with
  | quiet _ h => exact h
  | _ => constructor <;> assumption

/-- Every step can be executed. -/
theorem exec_exists (hI : RInv M.P w) {op : Op} (h : Legal M w op) : ∃ e, Exec M.P w op e := by
  cases op with
  | par threads i config src dst keep =>
    obtain ⟨r, hr⟩ := (par_fine (threads := threads) hI h).2
    exact ⟨_, .par threads i config src dst keep r hr⟩
  | _ => exact ⟨_, by constructor⟩

end Simd.Lend
